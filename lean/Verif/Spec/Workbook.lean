import Verif.Spec.UsbSys
import Verif.Spec.Linear
import Verif.Model.Workbook
/-! Vocabulary for C89: the board of the workbook example (C87 is on what its LEDs show when their driver is given colours), as the user of `WorkbookClient` sees it. -/

namespace PRpc.Spec

/-- The board: its identifier, what the driver of its 24 LEDs was last given, and how often it was asked to stop the
accelerometer; the `n`th time it finds the accelerometer in use if `busy n`. -/
structure Board where
  id : BitVec 64
  led : Fin 24 → Rgb8
  stops : Nat
  busy : Nat → Bool

/-- A board just switched on: all LEDs are dark. -/
def Board.dark (id : BitVec 64) (busy : Nat → Bool) : Board := ⟨id, fun _ => ⟨0#8, 0#8, 0#8⟩, 0, busy⟩

/-- What a method does to the board. -/
def Board.after (b : Board) : WbMethod → Board
  | .set_rgb_single position r g bl => { b with led := fun i => if i.val = position.toNat then ⟨r, g, bl⟩ else b.led i }
  | .set_all_rgb_single r g bl => { b with led := fun _ => ⟨r, g, bl⟩ }
  | .stop_accelerometer => { b with stops := b.stops + 1 }
  | _ => b

/-- What a method that reaches the board may return.  (When the accelerometer is in use is C81's matter, what
is in the report C20's.) -/
inductive Board.Answer (b : Board) : WbMethod → WbOut → Prop where
  | ping (n : BitVec 32) : Answer b (.ping n) (.num n)
  | get_id : Answer b .get_id (.id b.id)
  | set_one (position : BitVec 32) (red green blue : Byte) (h : position.toNat < 24) :
      Answer b (.set_rgb_single position red green blue) .unit
  | bad_position (position : BitVec 32) (red green blue : Byte) (h : 24 ≤ position.toNat) :
      Answer b (.set_rgb_single position red green blue) .bad_position
  | set_all (red green blue : Byte) : Answer b (.set_all_rgb_single red green blue) .unit
  | start (interval_ms : BitVec 32) (range : AccelRange) : Answer b (.start_accelerometer interval_ms range) .unit
  | stop : Answer b .stop_accelerometer (.busy (b.busy b.stops))
  | schemas (t : SchemaTotals) : Answer b .schemas (.report t)

/-- The board after the calls with these numbers, in this order, call `c` being that of method `ms[c]`. -/
def boardAfter (ms : List WbMethod) (b : Board) (calls : List Nat) : Board := (calls.filterMap (ms[·]?)).foldl Board.after b

/-- The firmware's data are those of the board: its LEDs show them, and it remembers what they show. -/
structure Shows (c : WbCtx) (b : Board) : Prop where
  id : c.fw.unique_id = b.id
  shown : ∀ i : Fin 24, c.fw.shown[i] = b.led i
  kept : ∀ i : Fin 24, c.fw.ws2812_state[i] = b.led i
  stops : c.tries = b.stops
  busy : c.held = b.busy

/-- The host calls methods of `WorkbookClient` only and subscribes to whatever it likes; the firmware publishes accelerations. -/
def WbUses (I : WbIcd) : ULabel WbVal → Prop
  | .client (.call_begin req resp body) => ∃ m : WbMethod, req = m.req I ∧ resp = m.resp I ∧ body = m.body
  | .client (.call_begin_raw _ _) => False
  | .client (.pub_begin _) => False
  | .app_publish key _ v => key = I.accel.key ∧ ∃ a, v = .accel a
  | _ => True

/-- The host subscribes to topics of the interface only. -/
def WbListens (I : WbIcd) : ULabel WbVal → Prop
  | .client (.sub_excl key _) => key ∈ [I.std.schema_topic, I.std.logging_topic, I.accel.key]
  | .client (.sub_repl key _) => key ∈ [I.std.schema_topic, I.std.logging_topic, I.accel.key]
  | .client (.sub_multi key _) => key ∈ [I.std.schema_topic, I.std.logging_topic, I.accel.key]
  | _ => True

/-- No task could be spawned for this call of `start_accelerometer`. -/
structure NotStarted {E : Type} (log : List (Event WbVal E Unit)) (cl : Call) (m : WbMethod) : Prop where
  refused : ∃ interval_ms range name hdr, m = .start_accelerometer interval_ms range ∧ hdr.seq_no = cl.rqst.header.seq_no ∧
    .spawned ⟨.endpoint, name, (), hdr, .start ⟨interval_ms, range⟩⟩ false ∈ log

/-- The calls made so far are those of the methods `ms`, in this order. -/
structure Made {E : Type} (I : WbIcd) (s : Sys WbVal E Unit WbCtx) (ms : List WbMethod) : Prop where
  len : ms.length = s.client.calls.length
  call : ∀ (c : Nat) (cl : Call) (m : WbMethod), s.client.calls[c]? = some cl → ms[c]? = some m →
    cl.rqst.header.key = .Key8 (m.req I) ∧ cl.resp_key = m.resp I ∧ cl.rqst.body = m.body

/-- All keys, those of the standard interface too, differ in their short forms of length `n`.  (`omit_std = true` keeps the standard
ones from being looked at when the length is chosen.) -/
structure WbApart (I : WbIcd) (n : Nat) : Prop where
  requests : DistinctAt n ([I.std.ping_req, I.std.schemas_req] ++ [.ping, .unique_id, .set_one, .set_all, .start, .stop].map I.req)
  answers : DistinctAt n ([I.std.error, I.std.ping_resp, I.std.schemas_resp] ++
    [.ping, .unique_id, .set_one, .set_all, .start, .stop].map I.resp ++ [I.std.schema_topic, I.std.logging_topic, I.accel.key])

/-- Call `c` comes before call `c'`. -/
def Before (order : List Nat) (c c' : Nat) : Prop := ∃ pre mid post, order = pre ++ c :: mid ++ c' :: post

end PRpc.Spec
