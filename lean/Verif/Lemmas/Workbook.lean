import Verif.Spec.Workbook
import Verif.Lemmas.Postcard
import Verif.Lemmas.Linear
import Verif.Lemmas.UsbSim
import Verif.Lemmas.KeyLength
import Verif.Props.Lossy
import Verif.Props.UsbSys
/-! Helper lemmas for C89. -/

namespace PRpc

open Spec

variable {E : Type}

/-! ### The messages -/

theorem reads_u64 (n : BitVec 64) : Reads take_u64 (enc_u64 n) n := by
  have h := reads_map (f := fun n => BitVec.ofNat 64 n) (reads_usize (wd := 8) (wh := 8) n.isLt (by decide) n.isLt (by decide))
  simp only [BitVec.ofNat_toNat, BitVec.setWidth_eq] at h
  exact h

theorem local_u64 : LocalDec take_u64 := local_bind (local_varint _ _) fun _ => local_pure _

theorem reads_then {α β : Type} {p : Dec α} {f : α → Dec β} {x : Bytes} {a : α} {b : β} (h1 : Reads p x a) (h2 : f a = pure b) :
    Reads (p >>= f) x b := by
  have := reads_bind (f := f) h1 (h2 ▸ reads_pure b)
  rwa [List.append_nil] at this

theorem local_bool : LocalDec take_bool := local_bind local_u8 fun _ => local_ite (local_pure _) (local_ite (local_pure _) local_fail)

theorem reads_bool (b : Bool) : Reads take_bool (enc_bool b) b := by cases b <;> exact fun _ => rfl

theorem local_set_res : LocalDec take_set_res := local_bind local_u32 fun _ => local_ite (local_pure _) (local_ite (local_pure _) local_fail)

theorem reads_set_res (b : Bool) : Reads take_set_res (enc_set_res b) b := by
  cases b
  · exact reads_then (reads_u32 1#32) rfl
  · exact reads_then (reads_u32 0#32) rfl

theorem reads_rgb (c : Rgb8) : Reads take_rgb (enc_rgb c) c := fun _ => rfl

theorem reads_led (l : SingleLed) : Reads take_led (enc_led l) l := reads_bind (reads_u32 _) (reads_map (f := fun c => (⟨l.position, c⟩ : SingleLed)) (reads_rgb l.rgb))

theorem reads_rgbs : ∀ {n : Nat} (v : Vector Rgb8 n), Reads (take_rgbs n) (enc_rgbs v) v
  | 0, v => by
    have : v = #v[] := by ext i hi; omega
    subst this
    exact reads_pure _
  | n + 1, v => by
    have hv : v = v.pop.push v.back := (Vector.push_pop_back v).symm
    rw [hv]
    have e : enc_rgbs (v.pop.push v.back) = enc_rgbs v.pop ++ enc_rgb v.back := by
      unfold enc_rgbs
      rw [Vector.toList_push, List.flatMap_append]
      simp
    rw [e]
    exact reads_bind (reads_rgbs v.pop) (reads_map (f := fun c => Vector.push v.pop c) (reads_rgb v.back))

theorem reads_range (r : AccelRange) : Reads take_range (enc_range r) r := by
  cases r
  · exact reads_then (reads_u32 0#32) rfl
  · exact reads_then (reads_u32 1#32) rfl
  · exact reads_then (reads_u32 2#32) rfl
  · exact reads_then (reads_u32 3#32) rfl

theorem reads_start (s : StartAccel) : Reads take_start (enc_start s) s :=
  reads_bind (reads_u32 _) (reads_map (f := fun c => (⟨s.interval_ms, c⟩ : StartAccel)) (reads_range s.range))

theorem reads_from {α : Type} {p : Dec α} {bs : Bytes} {a : α} (h : Reads p bs a) : from_bytes p bs = some a := by
  have := h []
  rw [List.append_nil] at this
  rw [from_bytes, this]
  rfl

/-! ### The application -/

/-- The application with the standard endpoints in its list. -/
def wb_full (E : Type) (I : WbIcd) : App WbVal E Unit WbCtx :=
  { wb_app E I with
    endpoint_list := ⟨I.ep_types, [⟨[], I.std.ping_req, I.std.ping_resp⟩, ⟨[], I.std.schemas_req, I.std.schemas_resp⟩] ++
      [.ping, .unique_id, .set_one, .set_all, .start, .stop].map fun e => ⟨I.path e, I.req e, I.resp e⟩⟩ }

theorem wb_dispatcher {I : WbIcd} {D : Dispatcher WbVal E Unit WbCtx} (h : define_dispatch (wb_app E I) = .ok D) :
    D.std = I.std ∧ D.eps = (wb_app E I).eps ∧ D.tps = [] ∧ D.ping_decode = (wb_app E I).ping_decode ∧ ∀ c, (D.spawn_ctxt c).2 = c := by
  obtain ⟨hsz, h1, h2, h3⟩ := define_dispatch_ok h
  refine ⟨h1, h2, h3, ?_⟩
  unfold define_dispatch at h
  rw [hsz] at h
  simp only [Exec.ok_bind, merge_types_eq] at h
  cases hk : kind_of_sz (keyLen D.n) with
  | panic => rw [hk] at h; simp at h
  | ok n =>
    rw [hk] at h
    simp only [Exec.ok_bind, Exec.ok.injEq] at h
    rw [← h]
    exact ⟨rfl, fun _ => rfl⟩

theorem wb_reqs (I : WbIcd) : (wb_full E I).endpoint_list.endpoints.map (·.req) =
    [I.std.ping_req, I.std.schemas_req] ++ [.ping, .unique_id, .set_one, .set_all, .start, .stop].map I.req := rfl

theorem wb_dispatches {I : WbIcd} {D : Dispatcher WbVal E Unit WbCtx} (h : define_dispatch (wb_app E I) = .ok D)
    (ha : WbApart I (keyLen D.n)) : Dispatches (wb_full E I) D := by
  obtain ⟨h1, h2, h3, _⟩ := wb_dispatcher h
  refine dispatches_of ?_ ⟨?_, ?_, h1, h2, h3⟩
  · rw [wb_reqs]
    exact (List.append_nil _).symm ▸ ha.requests
  · intro e he
    obtain ⟨h, hh, rfl⟩ := List.mem_map.mp he
    obtain ⟨ep, _, rfl⟩ := List.mem_map.mp hh
    cases ep <;> exact ⟨by simp [wb_full, wb_handler], by simp [wb_full, wb_handler]⟩
  · intro k hk
    cases hk

theorem wb_declared (E : Type) (I : WbIcd) (n : VarKeyKind) : Declared (wb_full E I) n where
  ping := ⟨_, List.mem_append.mpr (.inl (List.mem_cons_self ..)), rfl, rfl⟩
  schemas := ⟨_, List.mem_append.mpr (.inl (List.mem_cons_of_mem _ (List.mem_cons_self ..))), rfl, rfl⟩
  schema_topic := ⟨_, List.mem_cons_self .., rfl⟩
  names := by
    have : ((wb_full E I).eps.map (·.name)) = [0, 1, 2, 3, 4, 5] := rfl
    rw [this]
    decide
  sends := fun t ht => by cases ht

/-- A part of keys that differ. -/
theorem distinct_tail {n : Nat} {x : Key} {xs : List Key} (d : DistinctAt n (x :: xs)) : DistinctAt n xs := by
  intro i j hi hj hne h
  exact d (i + 1) (j + 1) (Nat.succ_lt_succ hi) (Nat.succ_lt_succ hj) (by omega) h

theorem distinct_head {n : Nat} {x : Key} {xs : List Key} (d : DistinctAt n (x :: xs)) {y : Key} (hy : y ∈ xs) : short n y ≠ short n x := by
  obtain ⟨i, hi, rfl⟩ := List.getElem_of_mem hy
  exact d (i + 1) 0 (Nat.succ_lt_succ hi) (Nat.succ_pos _) (Nat.succ_ne_zero _)

theorem wb_answers (I : WbIcd) : (wb_full E I).endpoint_list.endpoints.map (·.resp) ++ (wb_full E I).topic_out_list.topics.map (·.key) =
    [I.std.ping_resp, I.std.schemas_resp] ++ [.ping, .unique_id, .set_one, .set_all, .start, .stop].map I.resp ++
      [I.std.schema_topic, I.std.logging_topic, I.accel.key] := rfl

theorem wb_keysApart {I : WbIcd} {S : SysCfg WbVal E Unit WbCtx} (ha : WbApart I (keyLen S.kkind)) : KeysApart (wb_full E I) S := by
  refine apart_of_distinct ?_
  rw [wb_answers]
  exact distinct_tail ha.answers

theorem wb_error_apart {I : WbIcd} {n : Nat} (ha : WbApart I n) :
    (∀ r ∈ (wb_full E I).endpoint_list.endpoints, short n r.resp ≠ short n I.std.error) ∧
    ∀ t ∈ (wb_full E I).topic_out_list.topics, short n t.key ≠ short n I.std.error := by
  have d := ha.answers
  refine ⟨fun r hr => distinct_head d ?_, fun t ht => distinct_head d ?_⟩
  · have := List.mem_append_left ((wb_full E I).topic_out_list.topics.map (·.key)) (List.mem_map_of_mem (f := (·.resp)) hr)
    rw [wb_answers] at this
    exact this
  · have := List.mem_append_right ((wb_full E I).endpoint_list.endpoints.map (·.resp)) (List.mem_map_of_mem (f := (·.key)) ht)
    rw [wb_answers] at this
    exact this

theorem method_listed (I : WbIcd) (m : WbMethod) : m.req I ∈ [I.std.ping_req, I.std.schemas_req] ++ [.ping, .unique_id, .set_one, .set_all, .start, .stop].map I.req := by
  cases m <;> simp [WbMethod.req]

/-- The endpoint a method calls, if it is one of the application's. -/
def WbMethod.ep : WbMethod → Option WbEp
  | .ping _ => none
  | .get_id => some .unique_id
  | .set_rgb_single .. => some .set_one
  | .set_all_rgb_single .. => some .set_all
  | .start_accelerometer .. => some .start
  | .stop_accelerometer => some .stop
  | .schemas => none

theorem wb_handler_req (I : WbIcd) (e : WbEp) : (wb_handler I e).req = I.req e := by cases e <;> rfl

theorem wb_keys_inj {I : WbIcd} {n : Nat} (d : DistinctAt n ([I.std.ping_req, I.std.schemas_req] ++
    [.ping, .unique_id, .set_one, .set_all, .start, .stop].map I.req)) {e e' : WbEp} (h : short n (I.req e) = short n (I.req e')) : e = e' := by
  have idx : ∀ e : WbEp, ∃ i : Nat, ∃ hi : i < 8, ([I.std.ping_req, I.std.schemas_req] ++
      [.ping, .unique_id, .set_one, .set_all, .start, .stop].map I.req)[i] = I.req e ∧
      i = (match e with | .ping => 2 | .unique_id => 3 | .set_one => 4 | .set_all => 5 | .start => 6 | .stop => 7) := by
    intro e
    cases e
    · exact ⟨2, by decide, rfl, rfl⟩
    · exact ⟨3, by decide, rfl, rfl⟩
    · exact ⟨4, by decide, rfl, rfl⟩
    · exact ⟨5, by decide, rfl, rfl⟩
    · exact ⟨6, by decide, rfl, rfl⟩
    · exact ⟨7, by decide, rfl, rfl⟩
  obtain ⟨i, hi, e1, e2⟩ := idx e
  obtain ⟨j, hj, e3, e4⟩ := idx e'
  by_cases hij : i = j
  · rw [e2, e4] at hij
    cases e <;> cases e' <;> first | rfl | (simp at hij)
  · rw [← e1, ← e3] at h
    exact absurd h (d i j hi hj hij)

/-- A key of the application is not one of the standard ones. -/
theorem wb_not_std {I : WbIcd} {n : Nat} (d : DistinctAt n ([I.std.ping_req, I.std.schemas_req] ++
    [.ping, .unique_id, .set_one, .set_all, .start, .stop].map I.req)) (e : WbEp) :
    short n (I.req e) ≠ short n I.std.ping_req ∧ short n (I.req e) ≠ short n I.std.schemas_req := by
  have hm : I.req e ∈ [WbEp.ping, .unique_id, .set_one, .set_all, .start, .stop].map I.req := by cases e <;> simp
  exact ⟨fun h => distinct_parts d (by simp) hm h.symm, fun h => distinct_parts d (by simp) hm h.symm⟩

/-! ### What the handlers do -/

/-- What a method's request makes of the context. -/
def wb_next (c : WbCtx) : WbMethod → WbCtx
  | .set_rgb_single position r g b => { c with fw := (set_led_handler c.fw ⟨position, ⟨r, g, b⟩⟩).2 }
  | .set_all_rgb_single r g b => { c with fw := set_all_led_handler c.fw (Vector.replicate 24 ⟨r, g, b⟩) }
  | .stop_accelerometer => { c with fw := (accelerometer_stop_handler { c.fw with locked := c.held c.tries }).2, tries := c.tries + 1 }
  | _ => c

theorem shows_new (id : BitVec 64) (held : Nat → Bool) : Shows (wb_ctx id held) (Board.dark id held) where
  id := rfl
  shown := fun i => by simp [wb_ctx, Fw.new, Board.dark]
  kept := fun i => by simp [wb_ctx, Fw.new, Board.dark]
  stops := rfl
  busy := rfl

theorem set_led_bad {fw : Fw} {l : SingleLed} (h : l.position.toNat ≥ 24) : set_led_handler fw l = (false, fw) := by
  unfold set_led_handler; rw [dif_pos h]

theorem set_led_good {fw : Fw} {l : SingleLed} (h : ¬ l.position.toNat ≥ 24) : set_led_handler fw l =
    (true, { fw with ws2812_state := fw.ws2812_state.set l.position.toNat l.rgb (Nat.lt_of_not_le h)
                     shown := fw.ws2812_state.set l.position.toNat l.rgb (Nat.lt_of_not_le h) }) := by
  unfold set_led_handler; rw [dif_neg h]

theorem shows_set {c : WbCtx} {b : Board} (h : Shows c b) {st : Vector Rgb8 24} {led : Fin 24 → Rgb8} (e : ∀ i : Fin 24, st[i] = led i) :
    Shows { c with fw := { c.fw with ws2812_state := st, shown := st } } { b with led := led } := ⟨h.id, e, e, h.stops, h.busy⟩

theorem shows_next {c : WbCtx} {b : Board} (h : Shows c b) (m : WbMethod) : Shows (wb_next c m) (b.after m) := by
  cases m with
  | ping => exact h
  | get_id => exact h
  | schemas => exact h
  | start_accelerometer => exact h
  | set_rgb_single position r g bl =>
    by_cases hp : position.toNat ≥ 24
    · have e1 : wb_next c (.set_rgb_single position r g bl) = c := by
        show { c with fw := (set_led_handler c.fw ⟨position, ⟨r, g, bl⟩⟩).2 } = c
        rw [set_led_bad (l := ⟨position, ⟨r, g, bl⟩⟩) hp]
      have e2 : b.after (.set_rgb_single position r g bl) = b := by
        unfold Board.after
        have : (fun i : Fin 24 => if i.val = position.toNat then (⟨r, g, bl⟩ : Rgb8) else b.led i) = b.led := by
          funext i
          have := i.isLt
          rw [if_neg (by omega)]
        simp only [this]
      rw [e1, e2]
      exact h
    · have e1 : wb_next c (.set_rgb_single position r g bl) = { c with fw := { c.fw with
          ws2812_state := c.fw.ws2812_state.set position.toNat ⟨r, g, bl⟩ (Nat.lt_of_not_le hp)
          shown := c.fw.ws2812_state.set position.toNat ⟨r, g, bl⟩ (Nat.lt_of_not_le hp) } } := by
        show { c with fw := (set_led_handler c.fw ⟨position, ⟨r, g, bl⟩⟩).2 } = _
        rw [set_led_good (l := ⟨position, ⟨r, g, bl⟩⟩) hp]
      rw [e1]
      refine shows_set h fun i => ?_
      have hk := h.kept i
      simp only [Fin.getElem_fin] at hk ⊢
      rw [Vector.getElem_set]
      by_cases hi : i.val = position.toNat
      · rw [if_pos hi, if_pos hi.symm]
      · rw [if_neg hi, if_neg (fun e => hi e.symm)]; exact hk
  | set_all_rgb_single r g bl =>
    refine shows_set h fun i => ?_
    simp
  | stop_accelerometer =>
    have e : ∀ fw : Fw, (accelerometer_stop_handler fw).2.unique_id = fw.unique_id ∧
        (accelerometer_stop_handler fw).2.shown = fw.shown ∧ (accelerometer_stop_handler fw).2.ws2812_state = fw.ws2812_state := by
      intro fw
      unfold accelerometer_stop_handler
      simp only
      split <;> exact ⟨rfl, rfl, rfl⟩
    obtain ⟨e1, e2, e3⟩ := e { c.fw with locked := c.held c.tries }
    have h1 := h.id
    have h2 := h.shown
    have h3 := h.kept
    constructor
    · exact e1.trans h1
    · intro i
      show (accelerometer_stop_handler { c.fw with locked := c.held c.tries }).2.shown[i] = b.led i
      rw [e2]
      exact h2 i
    · intro i
      show (accelerometer_stop_handler { c.fw with locked := c.held c.tries }).2.ws2812_state[i] = b.led i
      rw [e3]
      exact h3 i
    · exact congrArg (· + 1) h.stops
    · exact h.busy

/-- The handler of a method's endpoint takes the method's request. -/
theorem method_decodes (I : WbIcd) {m : WbMethod} {e : WbEp} (h : m.ep = some e) : ∃ v, (wb_handler I e).decode m.body = some v := by
  cases m <;> cases h
  · exact ⟨_, rfl⟩
  · exact ⟨_, by simp only [wb_handler, WbMethod.body, reads_from (reads_led _)]; rfl⟩
  · exact ⟨_, by simp only [wb_handler, WbMethod.body, reads_from (reads_rgbs _)]; rfl⟩
  · exact ⟨_, by simp only [wb_handler, WbMethod.body, reads_from (reads_start _)]; rfl⟩
  · exact ⟨_, rfl⟩

/-- What the handler of a method's endpoint makes of the method's request. -/
theorem method_called (I : WbIcd) {m : WbMethod} {e : WbEp} (h : m.ep = some e) {g : WbCtx → VarHeader → WbVal → WbVal × WbCtx} {v : WbVal}
    (hl : (wb_handler I e).flavor = .blocking g ∨ (wb_handler I e).flavor = .async g) (hd : (wb_handler I e).decode m.body = some v)
    (c : WbCtx) (hdr : VarHeader) : (g c hdr v).2 = wb_next c m ∧
      (g c hdr v).1 = (match m with
        | .get_id => .u64 c.fw.unique_id
        | .set_rgb_single position r g b => .set_res (set_led_handler c.fw ⟨position, ⟨r, g, b⟩⟩).1
        | .stop_accelerometer => .bool (c.held c.tries)
        | _ => .unit) := by
  cases m <;> cases h
  · rcases hl with hl | hl <;> cases hl
    cases hd
    exact ⟨rfl, rfl⟩
  · rcases hl with hl | hl <;> cases hl
    simp only [wb_handler, WbMethod.body, reads_from (reads_led _)] at hd
    cases hd
    exact ⟨rfl, rfl⟩
  · rcases hl with hl | hl <;> cases hl
    simp only [wb_handler, WbMethod.body, reads_from (reads_rgbs _)] at hd
    cases hd
    exact ⟨rfl, rfl⟩
  · rcases hl with hl | hl <;> cases hl
  · rcases hl with hl | hl <;> cases hl
    cases hd
    exact ⟨rfl, rfl⟩

theorem method_key (I : WbIcd) {m : WbMethod} {e : WbEp} (h : m.ep = some e) : m.req I = I.req e := by
  cases m <;> cases h <;> rfl

theorem method_std (I : WbIcd) {m : WbMethod} (h : m.ep = none) : m.req I = I.std.ping_req ∨ m.req I = I.std.schemas_req := by
  cases m <;> first | (cases h; done) | exact .inl rfl | exact .inr rfl

/-- The row a method's request is for. -/
theorem method_row {I : WbIcd} {D : Dispatcher WbVal E Unit WbCtx} (hD : define_dispatch (wb_app E I) = .ok D) (ha : WbApart I (keyLen D.n))
    {hdr : VarHeader} {m : WbMethod} (hr : rxShort D hdr = short (keyLen D.n) (m.req I)) {h : EpHandler WbVal WbCtx} (hf : ForEndpoint D hdr h) :
    ∃ e, m.ep = some e ∧ h = wb_handler I e := by
  obtain ⟨h1, h2, _⟩ := wb_dispatcher hD
  have hm := hf.mem
  rw [h2] at hm
  obtain ⟨e', _, rfl⟩ := List.mem_map.mp hm
  have hh := hf.here
  rw [hr, wb_handler_req] at hh
  cases he : m.ep with
  | none =>
    exfalso
    have := hf.notStd
    unfold NotStd at this
    rw [h1, hr] at this
    rcases method_std I he with e | e
    · rw [e] at this; exact this.1 rfl
    · rw [e] at this; exact this.2 rfl
  | some e =>
    rw [method_key I he] at hh
    rw [wb_keys_inj ha.requests hh]
    exact ⟨_, rfl, rfl⟩

/-- What a method's request makes of the context. -/
theorem method_leaves {I : WbIcd} {D : Dispatcher WbVal E Unit WbCtx} (hD : define_dispatch (wb_app E I) = .ok D) (ha : WbApart I (keyLen D.n))
    {hdr : VarHeader} {m : WbMethod} (hlong : LongEnough D hdr) (hr : rxShort D hdr = short (keyLen D.n) (m.req I)) {ctx ctx' : WbCtx}
    {sends : List (Frame WbVal × Option E)} (h : Leaves D hdr m.body ctx sends ctx') : ctx' = wb_next ctx m := by
  obtain ⟨h1, h2, h3, _, h5⟩ := wb_dispatcher hD
  have noTopic : ∀ t, ¬ ForTopic D hdr t := by
    intro t ht
    obtain ⟨pre, post, e, _⟩ := ht.first
    rw [h3] at e
    cases pre <;> cases e
  cases h with
  | endpoint hf hd hl =>
    obtain ⟨e, he, rfl⟩ := method_row hD ha hr hf
    exact (method_called I he hl hd ctx hdr).1
  | endpoint_spawn hf hd hl =>
    obtain ⟨e, he, rfl⟩ := method_row hD ha hr hf
    rw [h5]
    cases m <;> cases he <;> first | rfl | (cases hl; done)
  | topic hf => exact absurd hf (noTopic _)
  | topic_async hf => exact absurd hf (noTopic _)
  | topic_spawn hf => exact absurd hf (noTopic _)
  | untouched hn =>
    cases he : m.ep with
    | none => cases m <;> first | rfl | (cases he; done)
    | some e =>
      exfalso
      have hns := wb_not_std ha.requests e
      rw [method_key I he] at hr
      have hmem : wb_handler I e ∈ D.eps := by
        rw [h2]
        exact List.mem_map.mpr ⟨e, by cases e <;> simp, rfl⟩
      have : ∃ h pre post, D.eps = pre ++ h :: post ∧ rxShort D hdr = short (keyLen D.n) h.req ∧ ∀ g ∈ pre, rxShort D hdr ≠ short (keyLen D.n) g.req := by
        have gen : ∀ l : List (EpHandler WbVal WbCtx), wb_handler I e ∈ l →
            ∃ h pre post, l = pre ++ h :: post ∧ rxShort D hdr = short (keyLen D.n) h.req ∧ ∀ g ∈ pre, rxShort D hdr ≠ short (keyLen D.n) g.req := by
          intro l
          induction l with
          | nil => intro h; cases h
          | cons x l ih =>
            intro hx
            by_cases hxr : rxShort D hdr = short (keyLen D.n) x.req
            · exact ⟨x, [], l, rfl, hxr, fun g hg => by cases hg⟩
            · rcases List.mem_cons.mp hx with e' | hx
              · rw [← e', wb_handler_req] at hxr
                exact absurd hr hxr
              · obtain ⟨h, pre, post, e1, e2, e3⟩ := ih hx
                refine ⟨h, x :: pre, post, by rw [e1]; rfl, e2, fun g hg => ?_⟩
                rcases List.mem_cons.mp hg with rfl | hg
                · exact hxr
                · exact e3 g hg
        exact gen _ hmem
      obtain ⟨h, pre, post, e1, e2, e3⟩ := this
      have hf : ForEndpoint D hdr h := ⟨hlong, by unfold NotStd; rw [h1, hr]; exact hns, e2, pre, post, e1, e3⟩
      obtain ⟨e', he', rfl⟩ := method_row hD ha (m := m) (by rw [method_key I he]; exact hr) hf
      obtain ⟨v, hv⟩ := method_decodes I he'
      rw [hn.1 _ hf] at hv
      cases hv

/-- What a method returns when it got the whole answer or a beginning of it. -/
theorem method_answer {I : WbIcd} {D : Dispatcher WbVal E Unit WbCtx} (hD : define_dispatch (wb_app E I) = .ok D) (ha : WbApart I (keyLen D.n))
    {enc : Body WbVal → Bytes} (henc : ∀ v, enc (.val v) = enc_wb v)
    {s : Sys WbVal E Unit WbCtx} {j : Nat} {hdr : VarHeader}
    {m : WbMethod} (hr : rxShort D hdr = short (keyLen D.n) (m.req I)) {fr : Frame WbVal} (h : Applied D s j hdr m.body fr) {ctx : WbCtx}
    (hctx : (contexts s)[j]? = some ctx) {b : Board} (hb : Shows ctx b) {f : RpcFrame} (hp : f.body <+: enc fr.body) {i : Nat}
    (hne : wb_result m (.Resp f i) ≠ .comms) : b.Answer m (wb_result m (.Resp f i)) := by
  obtain ⟨h1, h2, h3, h4, h5⟩ := wb_dispatcher hD
  have std : ∀ e, m.ep = some e → rxShort D hdr ≠ short (keyLen D.n) D.std.ping_req ∧ rxShort D hdr ≠ short (keyLen D.n) D.std.schemas_req := by
    intro e he
    rw [hr, h1, method_key I he]
    exact wb_not_std ha.requests e
  have got : ∀ {R : Type} {p : Dec R} {x : R}, LocalDec p → Reads p (enc fr.body) x → ∀ v, from_bytes p f.body = some v → v = x := by
    intro R p x hl hr v hv
    have hu := understood_of hl hr
    have e := Props.prefix_accepted hu.2 hp hv
    rw [e] at hv
    have := hu.1 []
    rw [List.append_nil, hv] at this
    exact Option.some.inj this
  cases h with
  | called h g v ctx' hf hl hd hc hb' hn =>
    rw [hctx] at hc
    cases hc
    obtain ⟨e, he, rfl⟩ := method_row hD ha hr hf
    obtain ⟨_, hv⟩ := method_called I he hl hd ctx hdr
    rw [hv] at hb'
    cases m <;> cases he
    · simp only [wb_result, finish_call] at hne ⊢
      cases hx : from_bytes take_u64 f.body with
      | none => rw [hx] at hne; exact absurd rfl hne
      | some x =>
        have := got local_u64 (x := ctx.fw.unique_id) (by rw [hb', henc]; exact reads_u64 _) x hx
        subst this
        simp only [wb_question, hb.id]
        exact .get_id
    · simp only [wb_result, finish_call] at hne ⊢
      cases hx : from_bytes take_set_res f.body with
      | none => rw [hx] at hne; exact absurd rfl hne
      | some x =>
        rename_i position r g' bl _
        have := got local_set_res (x := (set_led_handler ctx.fw ⟨position, ⟨r, g', bl⟩⟩).1) (by rw [hb', henc]; exact reads_set_res _) x hx
        subst this
        simp only [wb_question]
        by_cases hp : position.toNat ≥ 24
        · rw [set_led_bad (l := ⟨position, ⟨r, g', bl⟩⟩) hp]
          exact .bad_position _ _ _ _ hp
        · rw [set_led_good (l := ⟨position, ⟨r, g', bl⟩⟩) hp]
          exact .set_one _ _ _ _ (Nat.lt_of_not_le hp)
    · exact .set_all _ _ _
    · exact .start _ _
    · simp only [wb_result, finish_call] at hne ⊢
      cases hx : from_bytes take_bool f.body with
      | none => rw [hx] at hne; exact absurd rfl hne
      | some x =>
        have := got local_bool (x := ctx.held ctx.tries) (by rw [hb', henc]; exact reads_bool _) x hx
        subst this
        simp only [wb_question, hb.busy, hb.stops]
        exact .stop
  | spawned h v w i' sc ctx' hf hl hd =>
    obtain ⟨e, he, rfl⟩ := method_row hD ha hr hf
    cases m <;> cases he <;> first | exact .start _ _ | (cases hl; done)
  | ping v ctx' h6 h7 h8 =>
    cases he : m.ep with
    | some e => exact absurd h6 (std e he).1
    | none =>
      cases m <;> first | (cases he; done) | skip
      · rename_i n
        rw [h4] at h7
        simp only [wb_app, WbMethod.body, reads_from (reads_u32 n)] at h7
        cases h7
        simp only [wb_result, finish_call] at hne ⊢
        cases hx : from_bytes take_u32 f.body with
        | none => rw [hx] at hne; exact absurd rfl hne
        | some x =>
          have := got local_u32 (x := n) (by rw [h8, henc]; exact reads_u32 n) x hx
          subst this
          exact .ping x
      · simp only [wb_result, finish_call] at hne ⊢
        cases hx : from_bytes take_totals f.body with
        | none => rw [hx] at hne; exact absurd rfl hne
        | some x => exact .schemas x
  | schemas t ctx' h6 h7 =>
    cases he : m.ep with
    | some e => exact absurd h6 (std e he).2
    | none =>
      cases m <;> first | (cases he; done) | skip
      · rw [hr, h1] at h6
        exact absurd h6.symm (distinct_head (x := I.std.ping_req) ha.requests (List.mem_cons_self ..))
      · simp only [wb_result, finish_call] at hne ⊢
        cases hx : from_bytes take_totals f.body with
        | none => rw [hx] at hne; exact absurd rfl hne
        | some x => exact .schemas x

/-- The task whose reply `start_accelerometer` got has been given the method's arguments. -/
theorem method_started {I : WbIcd} {D : Dispatcher WbVal E Unit WbCtx} (hD : define_dispatch (wb_app E I) = .ok D) (ha : WbApart I (keyLen D.n))
    {s : Sys WbVal E Unit WbCtx} {j : Nat} {hdr : VarHeader} {interval_ms : BitVec 32} {range : AccelRange}
    (hr : rxShort D hdr = short (keyLen D.n) ((WbMethod.start_accelerometer interval_ms range).req I)) {fr : Frame WbVal}
    (h : Applied D s j hdr (WbMethod.start_accelerometer interval_ms range).body fr) :
    ∃ (i : Nat) (t : Task WbVal Unit), s.tasks[i]? = some (j, t) ∧ t.role = .endpoint ∧ t.hdr = hdr ∧ t.arg = .start ⟨interval_ms, range⟩ := by
  obtain ⟨h1, h2, h3, h4, h5⟩ := wb_dispatcher hD
  have std := wb_not_std ha.requests WbEp.start
  have hr' : rxShort D hdr = short (keyLen D.n) (I.req .start) := hr
  cases h with
  | called h g v ctx' hf hl hd =>
    obtain ⟨e, he, rfl⟩ := method_row hD ha hr hf
    cases he
    rcases hl with hl | hl <;> cases hl
  | spawned h v w i' sc ctx' hf hl hd hc ht =>
    obtain ⟨e, he, rfl⟩ := method_row hD ha hr hf
    cases he
    simp only [wb_handler, WbMethod.body, reads_from (reads_start _)] at hd
    cases hd
    exact ⟨i', _, ht, rfl, rfl, rfl⟩
  | ping v ctx' h6 => rw [hr', h1] at h6; exact absurd h6 std.1
  | schemas t ctx' h6 => rw [hr', h1] at h6; exact absurd h6 std.2

/-! ### The order of the calls -/

/-- Whatever key length the client has adapted to, its keys are long enough. -/
theorem taken_long {V E SC Ctx : Type} {a : App V E SC Ctx} {S : SysCfg V E SC Ctx} {s : Sys V E SC Ctx} (hD : Receives a S.disp)
    (hdecl : Declared a S.kkind) (hlong : keyLen S.disp.n ≤ keyLen S.kkind) (inv : SysInv a S s) {j : Nat} {b body : Bytes} {hdr : VarHeader}
    (hj : s.client.tx[j]? = some b) (hb : IsFrame b hdr body) : LongEnough S.disp hdr := by
  obtain ⟨f, hf, he⟩ := reachable_tx inv.reach hj
  rw [RpcFrame.to_bytes, write_to_vec_eq] at he
  cases he
  obtain ⟨rfl, _⟩ := isFrame_unique hb ((isFrame_iff ..).mpr (take_enc ..))
  have le : ∀ k, (k = VarKeyKind.Key8 ∨ k = S.kkind) → keyLen S.disp.n ≤ keyLen k := by
    rintro k (rfl | rfl)
    · exact keyLen_le _
    · exact hlong
  rcases reachable_enqOk inv.reach (sys_consist hD hdecl inv) f hf with ⟨c, cl, k, g1, g2, g3⟩ | ⟨p, pb, k, g1, g2, g3⟩
  · obtain ⟨r, _, e, _⟩ := inv.calls c cl g1
    rw [LongEnough, g3, shrink8_key _ _ e, short_length]
    exact le k g2
  · obtain ⟨t, _, e⟩ := inv.pubs p pb g1
    rw [LongEnough, g3, shrink8_key _ _ e, short_length]
    exact le k g2

/-- A byte string is the request of at most one call. -/
theorem asked_which {V E SC Ctx : Type} {a : App V E SC Ctx} {S : SysCfg V E SC Ctx} {s : Sys V E SC Ctx} (inv : SysInv a S s)
    (hlen : s.client.calls.length < 2 ^ 32) {c c' j : Nat} (h : AskedAt S.disp s c j) (h' : AskedAt S.disp s c' j) : c' = c := by
  obtain ⟨cl, b, hdr, req, hc, hb, hf, hs, _⟩ := h.asked
  obtain ⟨cl', b', hdr', req', hc', hb', hf', hs', _⟩ := h'.asked
  rw [hb] at hb'
  cases hb'
  obtain ⟨rfl, _⟩ := isFrame_unique hf hf'
  exact calls_apart inv hlen hc hc' (by rw [← hs, ← hs'])

/-- Byte string `j` was given to the dispatcher. -/
def HandledAt {V E SC Ctx : Type} (D : Dispatcher V E SC Ctx) (s : Sys V E SC Ctx) (j : Nat) : Prop :=
  ∃ ctx ctx' b hdr body sends, (contexts s)[j]? = some ctx ∧ (contexts s)[j + 1]? = some ctx' ∧ s.client.tx[j]? = some b ∧
    IsFrame b hdr body ∧ Leaves D hdr body ctx sends ctx'

open Classical in
/-- The call byte string `j` was given to the dispatcher for. -/
noncomputable def callAt {V E SC Ctx : Type} (D : Dispatcher V E SC Ctx) (s : Sys V E SC Ctx) (j : Nat) : Option Nat :=
  if h : ∃ c, AskedAt D s c j ∧ HandledAt D s j then some h.choose else none

theorem callAt_some {V E SC Ctx : Type} {D : Dispatcher V E SC Ctx} {s : Sys V E SC Ctx} {j c : Nat} (h : callAt D s j = some c) :
    AskedAt D s c j ∧ HandledAt D s j := by
  unfold callAt at h
  split at h
  · rename_i hx
    cases h
    exact hx.choose_spec
  · cases h

theorem callAt_eq {V E SC Ctx : Type} {a : App V E SC Ctx} {S : SysCfg V E SC Ctx} {s : Sys V E SC Ctx} (inv : SysInv a S s)
    (hlen : s.client.calls.length < 2 ^ 32) {j c : Nat} (h : AskedAt S.disp s c j) (hh : HandledAt S.disp s j) : callAt S.disp s j = some c := by
  unfold callAt
  have hx : ∃ c, AskedAt S.disp s c j ∧ HandledAt S.disp s j := ⟨c, h, hh⟩
  rw [dif_pos hx]
  exact congrArg some (asked_which inv hlen h hx.choose_spec.1)

theorem boardAfter_snoc (ms : List WbMethod) (b : Board) (cs : List Nat) (c : Nat) {m : WbMethod} (h : ms[c]? = some m) :
    boardAfter ms b (cs ++ [c]) = (boardAfter ms b cs).after m := by
  unfold boardAfter
  rw [List.filterMap_append, List.foldl_append]
  simp [h]

/-- The first `j` byte strings, those of them that were given to the dispatcher for a call. -/
noncomputable def orderTo {V E SC Ctx : Type} (D : Dispatcher V E SC Ctx) (s : Sys V E SC Ctx) (j : Nat) : List Nat :=
  (List.range j).filterMap (callAt D s)

theorem orderTo_succ {V E SC Ctx : Type} (D : Dispatcher V E SC Ctx) (s : Sys V E SC Ctx) (j : Nat) :
    orderTo D s (j + 1) = orderTo D s j ++ (callAt D s j).toList := by
  unfold orderTo
  rw [List.range_succ, List.filterMap_append]
  cases h : callAt D s j <;> simp [List.filterMap, h]

theorem orderTo_prefix {V E SC Ctx : Type} (D : Dispatcher V E SC Ctx) (s : Sys V E SC Ctx) {j n : Nat} (h : j ≤ n) :
    ∃ x, orderTo D s n = orderTo D s j ++ x := by
  induction n with
  | zero => exact ⟨[], by rw [Nat.le_zero.mp h, List.append_nil]⟩
  | succ n ih =>
    rcases Nat.lt_or_ge n j with h' | h'
    · exact ⟨[], by rw [show j = n + 1 by omega, List.append_nil]⟩
    · obtain ⟨x, e⟩ := ih h'
      exact ⟨x ++ (callAt D s n).toList, by rw [orderTo_succ, e, List.append_assoc]⟩

theorem orderTo_mem {V E SC Ctx : Type} {D : Dispatcher V E SC Ctx} {s : Sys V E SC Ctx} {n c : Nat} (h : c ∈ orderTo D s n) :
    ∃ j, j < n ∧ callAt D s j = some c := by
  obtain ⟨j, hj, e⟩ := List.mem_filterMap.mp h
  exact ⟨j, List.mem_range.mp hj, e⟩

theorem orderTo_at {V E SC Ctx : Type} {D : Dispatcher V E SC Ctx} {s : Sys V E SC Ctx} {j n c : Nat} (hj : j < n) (h : callAt D s j = some c) :
    ∃ post, orderTo D s n = orderTo D s j ++ c :: post := by
  obtain ⟨x, e⟩ := orderTo_prefix D s (show j + 1 ≤ n from hj)
  exact ⟨x, by rw [e, orderTo_succ, h]; simp⟩

theorem orderTo_before {V E SC Ctx : Type} {D : Dispatcher V E SC Ctx} {s : Sys V E SC Ctx} {j j' n c c' : Nat} (hj : j < j') (hj' : j' < n)
    (h : callAt D s j = some c) (h' : callAt D s j' = some c') : Before (orderTo D s n) c c' := by
  obtain ⟨mid, e⟩ := orderTo_at hj h
  obtain ⟨post, e'⟩ := orderTo_at hj' h'
  exact ⟨orderTo D s j, mid, post, by rw [e', e]⟩

theorem orderTo_nodup {V E SC Ctx : Type} {a : App V E SC Ctx} {S : SysCfg V E SC Ctx} {s : Sys V E SC Ctx} (hD : Receives a S.disp)
    (inv : SysInv a S s) (hlen : s.client.calls.length < 2 ^ 32) (n : Nat) : (orderTo S.disp s n).Nodup := by
  induction n with
  | zero => exact List.nodup_nil
  | succ n ih =>
    rw [orderTo_succ]
    cases h : callAt S.disp s n with
    | none => rw [Option.toList_none, List.append_nil]; exact ih
    | some c =>
      rw [Option.toList_some]
      refine List.nodup_append.mpr ⟨ih, List.nodup_cons.mpr ⟨List.not_mem_nil, List.nodup_nil⟩, fun x hx y hy e => ?_⟩
      rw [List.mem_singleton.mp hy] at e
      subst e
      obtain ⟨j, hj, e⟩ := orderTo_mem hx
      have := asked_once hD inv hlen (callAt_some e).1 (callAt_some h).1
      omega

/-- The board at every moment. -/
theorem board_at {I : WbIcd} {S : SysCfg WbVal E Unit WbCtx} (hD : define_dispatch (wb_app E I) = .ok S.disp) (hkk : S.kkind = S.disp.n)
    (ha : WbApart I (keyLen S.disp.n)) {id : BitVec 64} {held : Nat → Bool} {s : Sys WbVal E Unit WbCtx} (inv : SysInv (wb_full E I) S s)
    (cinv : CtxInv (wb_ctx id held) S s) (hlen : s.client.calls.length < 2 ^ 32) {ms : List WbMethod} (hm : Made I s ms) {j : Nat}
    (hj : j ≤ s.taken) : ∃ ctx, (contexts s)[j]? = some ctx ∧ Shows ctx (boardAfter ms (Board.dark id held) (orderTo S.disp s j)) := by
  have hDi := wb_dispatches hD ha
  have hdecl := wb_declared E I S.kkind
  induction j with
  | zero => exact ⟨_, cinv.first, shows_new id held⟩
  | succ j ih =>
    obtain ⟨ctx, e1, hsh⟩ := ih (by omega)
    obtain ⟨c1, ctx', h1, h2, heff⟩ := cinv.chain j hj
    rw [e1] at h1
    cases h1
    refine ⟨ctx', h2, ?_⟩
    rw [orderTo_succ]
    have main : ∀ b hdr body sends, s.client.tx[j]? = some b → IsFrame b hdr body → Leaves S.disp hdr body ctx sends ctx' →
        Shows ctx' (boardAfter ms (Board.dark id held) (orderTo S.disp s j ++ (callAt S.disp s j).toList)) := by
      intro b hdr body sends hb hf hl
      have hlong := taken_long hDi hdecl (by rw [hkk]; exact Nat.le_refl _) inv hb hf
      rcases taken_origin hDi hdecl inv ⟨b, hb, (isFrame_iff ..).mp hf⟩ with ⟨c, cl, r, k, g1, g2, g3, g4, g5, g6, g7⟩ | ⟨p, pb, _, t, ht, _⟩
      · have hc := getElem?_lt g1
        obtain ⟨m, hmc⟩ : ∃ m, ms[c]? = some m := ⟨_, List.getElem?_eq_getElem (by rw [hm.len]; exact hc)⟩
        obtain ⟨k1, _, k3⟩ := hm.call c cl m g1 hmc
        have hrx : rxShort S.disp hdr = short (keyLen S.disp.n) (m.req I) := by
          rw [g7 hlong]
          rw [k1] at g3
          rw [VarKey.Key8.inj g3]
        have hask : AskedAt S.disp s c j :=
          ⟨cl, b, hdr, m.req I, g1, hb, by rw [← g6]; exact hf, by rw [g5]; rfl, k1, hlong, hrx⟩
        rw [callAt_eq inv hlen hask ⟨ctx, ctx', b, hdr, body, sends, e1, h2, hb, hf, hl⟩, Option.toList_some, boardAfter_snoc _ _ _ _ hmc]
        rw [g6, k3] at hl
        rw [method_leaves hD ha hlong hrx hl]
        exact shows_next hsh m
      · cases ht
    cases hca : callAt S.disp s j with
    | some c =>
      obtain ⟨_, ctx1, ctx2, b, hdr, body, sends, a1, a2, a3, a4, a5⟩ := callAt_some hca
      rw [e1] at a1
      rw [h2] at a2
      cases a1
      cases a2
      rw [← hca]
      exact main b hdr body sends a3 a4 a5
    | none =>
      cases heff with
      | handled b hdr body sends _ b1 b2 b3 =>
        rw [← hca]
        exact main b hdr body sends b1 b2 b3
      | dropped b1 b2 =>
        rw [Option.toList_none, List.append_nil]
        exact hsh

/-- What was answered was given to the dispatcher. -/
theorem reply_handled {V E SC Ctx : Type} {c0 : Ctx} {S : SysCfg V E SC Ctx} {s : Sys V E SC Ctx} (cinv : CtxInv c0 S s) {j : Nat}
    {hdr : VarHeader} {body : Bytes} {req resp : Key} {o : Out V} (ho : o ∈ s.outs) (hr : ReplyTo S.disp s j hdr body req resp o) :
    j < s.taken ∧ HandledAt S.disp s j := by
  have src : (o.src = .req j ∨ ∃ (i : Nat) (t : Task V SC), s.old ≤ i ∧ s.tasks[i]? = some (j, t)) := by
    cases hr with
    | called => exact .inl rfl
    | spawned h v w i sc fr cut h1 h2 h3 h4 h5 h6 h7 => exact .inr ⟨i, _, h6, h7⟩
    | ping => exact .inl rfl
    | schemas => exact .inl rfl
  have hj : j < s.taken := by
    rcases src with hs | ⟨i, t, h1, h2⟩
    · exact cinv.srcs o j (.inl ho) hs
    · exact cinv.tasks i _ h1 h2
  obtain ⟨ctx, ctx', h1, h2, heff⟩ := cinv.chain j hj
  refine ⟨hj, ?_⟩
  cases heff with
  | handled b hdr body sends _ b1 b2 b3 => exact ⟨ctx, ctx', b, hdr, body, sends, h1, h2, b1, b2, b3⟩
  | dropped b1 b2 =>
    rcases src with hs | ⟨i, t, h3, h4⟩
    · exact absurd hs (b1 o (.inl ho))
    · exact absurd rfl (b2 i _ h3 h4)

/-- A call that has returned an answer: where it is in the order, and what it returned. -/
theorem board_reply {I : WbIcd} {S : SysCfg WbVal E Unit WbCtx} (hD : define_dispatch (wb_app E I) = .ok S.disp) (hkk : S.kkind = S.disp.n)
    (ha : WbApart I (keyLen S.disp.n)) {s : Sys WbVal E Unit WbCtx} (inv : SysInv (wb_full E I) S s)
    (hold : s.old = 0) (hlen : s.client.calls.length < 2 ^ 32) {c : Nat} {cl : Call} {f : RpcFrame} {i : Nat}
    (hc : s.client.calls[c]? = some cl) (hres : cl.phase = .done (.Resp f i)) :
    ∃ o ∈ s.outs, ∃ j hdr req, CarriesPart S.enc o f ∧ RequestOf s c cl j hdr ∧ cl.rqst.header.key = .Key8 req ∧
      ReplyTo S.disp s j hdr cl.rqst.body req cl.resp_key o := by
  have hap : WbApart I (keyLen S.kkind) := by rw [hkk]; exact ha
  obtain ⟨o, ho, ⟨j, hdr, req, h1⟩ | ⟨_, k, j, t, h2, _⟩⟩ := Props.reply_begins (wb_full E I) S (wb_dispatches hD ha) (wb_declared E I S.kkind)
    (wb_keysApart hap) (wb_error_apart hap).1 inv hlen hc (f := f) (i := i) (by rw [result, hres])
  · exact ⟨o, ho, j, hdr, req, h1⟩
  · have := h2.earlier
    rw [hold] at this
    exact absurd this (Nat.not_lt_zero _)

end PRpc
