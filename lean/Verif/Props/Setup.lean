import Verif.Lemmas.Setup
import Verif.Props.Connect
/-! C97: setting up USB devices, and the name they give. -/

namespace PRpc.Props
open Spec

/-- A program that sets up three devices, one of them for poststation. -/
def exSetup : List SetupAct :=
  [.plain 0 0x01#8 0x81#8 [] [] [], .poststation 1 0x02#8 0x82#8 [0#8], .plain 2 0x03#8 0x83#8 [] [⟨3#8, 0#8, 0#8, some 7#8, []⟩] [fun i _ => if i = 7#8 then some "x" else none]]

/-- C97: the calls of a program panic exactly when some storage is used twice or `init_poststation` is called twice. -/
theorem c97_panics_iff (acts : List SetupAct) :
    setup_run acts ⟨Statics.new, []⟩ = .panic ↔ ¬ EachOnce acts ∨ 2 ≤ acts.countP isPost := by
  by_cases h : Works acts
  · rw [(setup_run_start acts).1 h]
    refine ⟨nofun, fun e => ?_⟩
    cases e with
    | inl e => exact absurd h.1 e
    | inr e => have := h.2; omega
  · refine ⟨fun _ => ?_, fun _ => (setup_run_start acts).2 h⟩
    by_cases h1 : EachOnce acts
    · exact .inr (Nat.lt_of_not_le fun h2 => h ⟨h1, h2⟩)
    · exact .inl h1

example : setup_run (.plain 2 0#8 0#8 [] [] [] :: exSetup) ⟨Statics.new, []⟩ = .panic :=
  (c97_panics_iff _).mpr (.inl (by unfold EachOnce; decide))

/-- C97: when they do not panic there is one device for each call, in order, that is what its call says: fresh transmitter on the buffer
given, the interfaces of the server first, the poststation string for the index of its interface in US English and nothing else; every
other device gives the application's strings only. -/
theorem c97_built (acts : List SetupAct) (y : SetupSt) (h : setup_run acts ⟨Statics.new, []⟩ = .ok y) :
    y.built.length = acts.length ∧ ∀ (j : Nat) (a : SetupAct) (b : UBuilt), acts[j]? = some a → y.built[j]? = some b → BuiltBy y.statics b a := by
  have hw : Works acts := Classical.byContradiction fun hn => by
    rw [(setup_run_start acts).2 hn] at h
    cases h
  rw [(setup_run_start acts).1 hw] at h
  cases h
  refine ⟨by simp [after], fun j a b ha hb => ?_⟩
  rw [after, List.getElem?_map, ha] at hb
  cases Option.some.inj hb
  cases a with
  | poststation k o i buf =>
    have hp : acts.any isPost = true := List.any_eq_true.mpr ⟨_, List.mem_of_getElem? ha, rfl⟩
    have hask : ∀ index lang, ask_string (after acts).statics (built_of (.poststation k o i buf)).builder index lang =
        if index = 4#8 ∧ lang = 0x0409#16 then some "Poststation" else none := by
      intro index lang
      simp only [ask_string, built_of, List.findSome?_cons, List.findSome?_nil, after, hp, if_true, poststation_get_string]
      rw [if_neg (by decide)]
      by_cases h1 : index = 4#8 <;> by_cases h2 : lang = 0x0409#16 <;> simp [h1, h2]
    exact ⟨rfl, rfl, rfl, rfl, ⟨_, .head _, rfl, rfl, rfl, 4#8, rfl, by rw [hask]; rfl⟩, rfl, 4#8, by
      intro y hy
      cases List.mem_singleton.mp hy
      rfl, hask⟩
  | plain k o i buf ifs hs =>
    refine ⟨rfl, rfl, rfl, rfl, ?_, fun index lang => ?_⟩
    · rw [listed_numbered]
      rfl
    · simp only [ask_string, built_of, List.findSome?_map]
      rfl

example : ∃ y, setup_run exSetup ⟨Statics.new, []⟩ = .ok y ∧ y.built.length = 3 := ⟨_, rfl, rfl⟩

/-- C97: a device whose application adds no string handler is taken for a poststation device exactly when it was set up as one. -/
theorem c97_looks (acts : List SetupAct) (y : SetupSt) (h : setup_run acts ⟨Statics.new, []⟩ = .ok y) (j : Nat) (a : SetupAct) (b : UBuilt)
    (ha : acts[j]? = some a) (hb : y.built[j]? = some b) (hn : ∀ k o i buf ifs hs, a = .plain k o i buf ifs hs → hs = []) :
    LooksPoststation y.statics b.builder ↔ isPost a = true := by
  have hbb := (c97_built acts y h).2 j a b ha hb
  cases a with
  | poststation k o i buf => exact ⟨fun _ => rfl, fun _ => hbb.2.2.2.2.1⟩
  | plain k o i buf ifs hs =>
    cases hn _ _ _ _ _ _ rfl
    refine ⟨fun ⟨_, _, _, _, _, x, _, hx⟩ => ?_, nofun⟩
    rw [hbb.2.2.2.2.2] at hx
    cases hx

example : ∃ y b, setup_run exSetup ⟨Statics.new, []⟩ = .ok y ∧ y.built[1]? = some b ∧ LooksPoststation y.statics b.builder := by
  refine ⟨_, _, rfl, rfl, ?_⟩
  exact (c97_looks exSetup _ rfl 1 _ _ rfl rfl nofun).mpr rfl

/-- C97: a host that looks for the device connects, on every system, to the endpoints its server reads from and writes to, with packets of 64
bytes. -/
theorem c97_found (acts : List SetupAct) (y : SetupSt) (h : setup_run acts ⟨Statics.new, []⟩ = .ok y) (b : UBuilt) (hb : b ∈ y.built)
    (d : UsbDev) (hd : d.ifaces = listed 0 b.builder.ifaces) (ho : d.opens = true) (hc : d.claims 0 = true) (devices : List UsbDev)
    (df : UsbDev → Bool) (hf : First df devices d) (windows : Bool) :
    ∃ c, try_new_raw_nusb windows (some devices) df = .ok c ∧ c.dev = d ∧ c.ep_out = b.ep_out ∧ c.ep_in = b.ep_in ∧ c.mps = some 64 ∧ GoodEndpoints c := by
  obtain ⟨j, hj⟩ := List.getElem?_of_mem hb
  obtain ⟨hl, hall⟩ := c97_built acts y h
  have hja : j < acts.length := by
    have := (List.getElem?_eq_some_iff.mp hj).1
    omega
  have hbb := hall j _ b (List.getElem?_eq_getElem hja) hj
  have key : ∀ (o i : Byte) (more), b.ep_out = o → b.ep_in = i → listed 0 b.builder.ifaces = init_interfaces o i more →
      ∃ c, try_new_raw_nusb windows (some devices) df = .ok c ∧ c.dev = d ∧ c.ep_out = b.ep_out ∧ c.ep_in = b.ep_in ∧ c.mps = some 64 ∧ GoodEndpoints c := by
    intro o i more he he' hi
    have := c79_own_devices o i more d (hd.trans hi) ho hc devices df hf
    exact ⟨_, this.1 windows, rfl, he.symm, he'.symm, rfl, this.2.1 _ (this.1 false)⟩
  cases hact : acts[j] with
  | poststation k o i buf =>
    rw [hact] at hbb
    exact key o i [] hbb.2.1 hbb.2.2.1 hbb.2.2.2.2.2.1
  | plain k o i buf ifs hs =>
    rw [hact] at hbb
    exact key o i _ hbb.2.1 hbb.2.2.1 hbb.2.2.2.2.1

example : ∃ y b, setup_run exSetup ⟨Statics.new, []⟩ = .ok y ∧ b ∈ y.built ∧ exDev.ifaces = listed 0 b.builder.ifaces ∧
    First (fun _ => true) [exDev] exDev := ⟨_, _, rfl, .head _, rfl, [], [], rfl, rfl, by simp⟩

/-- C97 as stated, the panics: a program that uses each storage once does not panic. -/
def C97NoPanicFull : Prop := ∀ acts : List SetupAct, EachOnce acts → setup_run acts ⟨Statics.new, []⟩ ≠ .panic

/-- C97 is false of the panics: two devices for poststation with a storage each. -/
theorem c97_no_panic_false : ¬ C97NoPanicFull := fun h =>
  h [.poststation 0 0x01#8 0x81#8 [], .poststation 1 0x01#8 0x81#8 []] (by unfold EachOnce; decide) rfl

/-- C97, the panics, what holds: with one device for poststation at most.  Missing: more than one. -/
theorem c97_no_panic_partial (acts : List SetupAct) (h : EachOnce acts) (h1 : acts.countP isPost ≤ 1) :
    setup_run acts ⟨Statics.new, []⟩ ≠ .panic := fun e => by
  cases (c97_panics_iff acts).mp e with
  | inl e => exact e h
  | inr e => omega

example : EachOnce exSetup ∧ exSetup.countP isPost ≤ 1 := by unfold EachOnce; decide

end PRpc.Props
