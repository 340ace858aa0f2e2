import Verif.Model.Example
/-!
Model of the LED driver of the example firmware (`/repo/example/firmware/src/ws2812.rs`; the file in
`/repo/example/firmware-eusb-v0_3/src` is the same): the words it computes, the program it loads into the RP2040's PIO state
machine, and the time `write` takes, cycle by cycle of the state machine.

External, from the RP2040's documentation: one instruction per cycle, followed by its delay; the side-set value is put on the pin
when the instruction starts, also when it then stalls; `OUT` with automatic refill stalls while its shift register has given out
`threshold` bits and the FIFO is empty; with `FifoJoin::TxOnly` the FIFO holds eight words.  Simplifications: the DMA channel
refills the FIFO, and the FIFO the shift register, without losing a cycle (both run at the system clock, more than fifteen times
as fast); `PINDIRS` has no state.  `Timer::after_micros(55)` is taken to end as early as it may.
-/

namespace PRpc

/-- `T1`, `T2`, `T3`, ws2812.rs 42-44. -/
def WS_T1 : Nat := 2
/-- See `WS_T1`. -/
def WS_T2 : Nat := 5
/-- See `WS_T1`. -/
def WS_T3 : Nat := 3
/-- `CYCLES_PER_BIT`, ws2812.rs 45. -/
def CYCLES_PER_BIT : Nat := WS_T1 + WS_T2 + WS_T3

/-- `clock_divider`, ws2812.rs 75-78, in 256ths, from the system clock in kHz (`U24F8` has eight fractional bits; its division
rounds down). -/
def clock_divider (khz : Nat) : Nat := (khz * 256) * 256 / (800 * 256 * CYCLES_PER_BIT)

/-- The instructions used, ws2812.rs 50-60. -/
inductive PioOp where
  | set_pindirs
  | out_x
  | jmp_not_x (dst : Nat)
  | jmp (dst : Nat)
  | nop
  deriving DecidableEq, Repr

/-- An instruction with its delay and side-set value. -/
structure PioInstr where
  op : PioOp
  delay : Nat
  side : Bool
  deriving DecidableEq, Repr

/-- `wrap_target`, bound at ws2812.rs 51. -/
def ws_wrap_target : Nat := 1
/-- `do_zero`, bound at ws2812.rs 58. -/
def ws_do_zero : Nat := 4
/-- `wrap_source`, bound at ws2812.rs 61: the wrap happens after the instruction before it. -/
def ws_wrap_source : Nat := 5

/-- The program, ws2812.rs 50-61. -/
def ws_program : List PioInstr :=
  [⟨.set_pindirs, 0, false⟩,
   ⟨.out_x, WS_T3 - 1, false⟩,
   ⟨.jmp_not_x ws_do_zero, WS_T1 - 1, true⟩,
   ⟨.jmp ws_wrap_target, WS_T2 - 1, true⟩,
   ⟨.nop, WS_T2 - 1, false⟩]

/-- `ShiftConfig::threshold`, ws2812.rs 84. -/
def WS_THRESHOLD : Nat := 24

/-- Words the FIFO holds, ws2812.rs 81 (`FifoJoin::TxOnly`). -/
def WS_FIFO : Nat := 8

/-- The cycles of `Timer::after_micros(55)`, ws2812.rs 110, at eight cycles per microsecond. -/
def WS_WAIT : Nat := 55 * 8

/-- The state machine: program counter, delay cycles left, scratch register `X`, output shift register and the number of bits it
has given out, the pin.  `queue` is the FIFO and behind it the words the DMA channel has still to push. -/
structure Pio where
  pc : Nat
  delay : Nat
  x : Bool
  osr : BitVec 32
  count : Nat
  queue : List (BitVec 32)
  pin : Bool
  deriving DecidableEq, Repr

/-- After `set_enable(true)`, ws2812.rs 88-89: a shift register that counts as empty. -/
def Pio.new : Pio := ⟨0, 0, false, 0#32, 32, [], false⟩

/-- The automatic refill, ws2812.rs 83 (`auto_fill`). -/
def Pio.refill (s : Pio) : Pio :=
  if WS_THRESHOLD ≤ s.count then
    match s.queue with
    | w :: q => { s with osr := w, count := 0, queue := q }
    | [] => s
  else s

/-- The next instruction, with the wrap of `assemble_with_wrap(wrap_source, wrap_target)`, ws2812.rs 63. -/
def ws_next (pc : Nat) : Nat := if pc + 1 = ws_wrap_source then ws_wrap_target else pc + 1

/-- One cycle of the state machine. -/
def Pio.cycle (s : Pio) : Pio :=
  let s := s.refill
  match s.delay with
  | d + 1 => { s with delay := d }
  | 0 =>
    match ws_program[s.pc]? with
    | none => s
    | some i =>
      let s := { s with pin := i.side }
      match i.op with
      | .set_pindirs => { s with pc := ws_next s.pc, delay := i.delay }
      | .out_x =>
        if WS_THRESHOLD ≤ s.count then s
        else { s with x := s.osr.msb, osr := s.osr <<< 1, count := s.count + 1, pc := ws_next s.pc, delay := i.delay }
      | .jmp_not_x dst => { s with pc := if s.x then ws_next s.pc else dst, delay := i.delay }
      | .jmp dst => { s with pc := dst, delay := i.delay }
      | .nop => { s with pc := ws_next s.pc, delay := i.delay }

/-- The word of a colour, ws2812.rs 101-103. -/
def ws_word (c : Rgb8) : BitVec 32 :=
  (c.g.setWidth 32 <<< 24) ||| (c.r.setWidth 32 <<< 16) ||| (c.b.setWidth 32 <<< 8)

/-- Where `write` stands, ws2812.rs 97-111: not running; waiting for the DMA transfer (108); waiting for the timer (110), so many
cycles more. -/
inductive WsDrv where
  | idle
  | pushing
  | waiting (n : Nat)
  deriving DecidableEq, Repr

/-- Driver and state machine. -/
structure Ws where
  pio : Pio
  drv : WsDrv
  deriving DecidableEq, Repr

/-- After `Ws2812::new`, ws2812.rs 28-95. -/
def Ws.new : Ws := ⟨Pio.new, .idle⟩

/-- `write` after a cycle: the transfer is complete when all words are in the FIFO. -/
def ws_drv (queue : Nat) : WsDrv → WsDrv
  | .idle => .idle
  | .pushing => if queue ≤ WS_FIFO then .waiting WS_WAIT else .pushing
  | .waiting (n + 1) => .waiting n
  | .waiting 0 => .idle

/-- One cycle, at whose beginning `write` may be called (`&mut self`: not while another call is waiting). -/
def ws_step (s : Ws) (call : Option (List Rgb8)) : Option Ws :=
  match call with
  | none =>
    let pio := s.pio.cycle
    some ⟨pio, ws_drv pio.queue.length s.drv⟩
  | some colors =>
    match s.drv with
    | .idle =>
      let pio := { s.pio with queue := s.pio.queue ++ colors.map ws_word }.cycle
      some ⟨pio, ws_drv pio.queue.length .pushing⟩
    | _ => none

/-- Cycles one after the other: the levels of the pin, and the state afterwards. -/
def ws_run : List (Option (List Rgb8)) → Ws → Option (List Bool × Ws)
  | [], s => some ([], s)
  | c :: cs, s =>
    match ws_step s c with
    | none => none
    | some s =>
      match ws_run cs s with
      | none => none
      | some (levels, s') => some (s.pio.pin :: levels, s')

end PRpc
