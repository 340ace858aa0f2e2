import Verif.Props.Header
import Verif.Props.Key
import Verif.Props.MinKey
import Verif.Props.Uniques
import Verif.Props.Dispatch
import Verif.Props.Server
import Verif.Props.Cobs
import Verif.Props.Usb
import Verif.Props.Client
import Verif.Props.ClientSubs
import Verif.Props.Errors
import Verif.Props.Nusb
import Verif.Props.UsbLink
import Verif.Props.SchemaReport
import Verif.Props.EndToEnd
import Verif.Props.Icd
import Verif.Props.EUsbTx
import Verif.Props.HostWires
import Verif.Props.Describe
import Verif.Props.Channel
import Verif.Props.Drop
import Verif.Props.Progress
import Verif.Props.Live
import Verif.Props.UsbSend
import Verif.Props.Context
import Verif.Props.Backpressure
import Verif.Props.Causes
import Verif.Props.UsbServer
import Verif.Props.UsbTimed
import Verif.Props.Lossy
import Verif.Props.KeyLength
import Verif.Props.Bounded
import Verif.Props.Session
import Verif.Props.Takeover
import Verif.Props.Connect
import Verif.Props.Local
import Verif.Props.Example
import Verif.Props.Query
import Verif.Conform.Units
import Verif.Conform.Tests
import Verif.Model.Stall
import Verif.Spec.Stall
import Verif.Lemmas.Stall
import Verif.Props.Stall
import Verif.Model.UsbSys
import Verif.Spec.UsbSys
import Verif.Lemmas.UsbSys
import Verif.Lemmas.UsbSim
import Verif.Lemmas.UsbLive
import Verif.Lemmas.UsbConf
import Verif.Props.UsbSys
import Verif.Model.Postcard
import Verif.Spec.Postcard
import Verif.Lemmas.Postcard
import Verif.Props.Postcard
import Verif.Spec.UsbAnswer
import Verif.Lemmas.UsbAnswer
import Verif.Props.UsbAnswer
import Verif.Model.Ws2812
import Verif.Spec.Ws2812
import Verif.Lemmas.Ws2812
import Verif.Props.Ws2812
import Verif.Spec.Linear
import Verif.Lemmas.Linear
import Verif.Props.Linear
import Verif.Model.Workbook
import Verif.Spec.Workbook
import Verif.Lemmas.Workbook
import Verif.Lemmas.WorkbookRun
import Verif.Props.Workbook
import Verif.Spec.Failed
import Verif.Lemmas.Failed
import Verif.Props.Failed
import Verif.Lemmas.WorkbookLive
import Verif.Props.WorkbookLive
import Verif.Model.QSys
import Verif.Spec.QSys
import Verif.Lemmas.SchemaOuts
import Verif.Lemmas.InOrder
import Verif.Lemmas.QSys
import Verif.Lemmas.QSysRun
import Verif.Lemmas.QSysTypes
import Verif.Props.QSys
import Verif.Spec.Held
import Verif.Lemmas.Held
import Verif.Props.Held
import Verif.Model.Repl
import Verif.Spec.Repl
import Verif.Lemmas.ReplText
import Verif.Lemmas.Repl
import Verif.Lemmas.ReplRun
import Verif.Props.Repl
import Verif.Spec.Topics
import Verif.Lemmas.Topics
import Verif.Lemmas.TopicsUsb
import Verif.Props.Topics
import Verif.Model.Logging
import Verif.Spec.Logging
import Verif.Lemmas.LogText
import Verif.Lemmas.Ping
import Verif.Lemmas.BrxStep
import Verif.Lemmas.Logging
import Verif.Props.Logging
import Verif.Model.Pings
import Verif.Spec.Pings
import Verif.Lemmas.Pings
import Verif.Lemmas.PingsLive
import Verif.Props.Pings
import Verif.Model.Setup
import Verif.Spec.Setup
import Verif.Lemmas.Setup
import Verif.Props.Setup
import Verif.Spec.Skew
import Verif.Lemmas.Skew
import Verif.Props.Skew
import Verif.Model.Hello
import Verif.Spec.Hello
import Verif.Lemmas.Hello
import Verif.Props.Hello
import Verif.Spec.Raw
import Verif.Lemmas.Raw
import Verif.Props.Raw
import Verif.Lemmas.RawOnce
import Verif.Lemmas.RawReuse
import Verif.Props.RawReuse
import Verif.Spec.NoGaps
import Verif.Props.NoGaps
import Verif.Model.Listen
import Verif.Spec.Listen
import Verif.Lemmas.Accel
import Verif.Lemmas.Caps
import Verif.Lemmas.Listen
import Verif.Lemmas.ListenRun
import Verif.Lemmas.ListenTurn
import Verif.Lemmas.ListenOwn
import Verif.Props.Listen
import Verif.Spec.SkewUsb
import Verif.Props.SkewUsb
import Verif.Model.QUsb
import Verif.Spec.QUsb
import Verif.Lemmas.QUsb
import Verif.Props.QUsb
import Verif.Model.UsbNext
import Verif.Model.Minimal
import Verif.Model.WebSys
import Verif.Spec.UsbNext
import Verif.Spec.Minimal
import Verif.Spec.WebSys
import Verif.Lemmas.UsbNext
import Verif.Lemmas.Minimal
import Verif.Lemmas.WebSys
import Verif.Props.UsbNext
import Verif.Props.Minimal
import Verif.Props.WebSys
import Verif.Props.Replug
import Verif.Spec.RawUsb
import Verif.Lemmas.RawUsb
import Verif.Props.RawUsb
import Verif.Spec.Published
import Verif.Lemmas.Published
import Verif.Props.Published
import Verif.Spec.History
import Verif.Lemmas.History
import Verif.Props.History
import Verif.Props.UsbLater
import Verif.Spec.SkewLater
import Verif.Lemmas.SkewLater
import Verif.Props.SkewLater
import Verif.Props.SkewLaterUsb
import Verif.Model.WebNext
import Verif.Spec.WebNext
import Verif.Lemmas.WebNext
import Verif.Props.WebNext
import Verif.Lemmas.WebWhole
import Verif.Lemmas.WebCount
import Verif.Props.WebWhole
