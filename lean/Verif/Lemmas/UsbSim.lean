import Verif.Lemmas.UsbSys
/-!
The simulation: a run packet by packet is a run of the composed system with whole messages on its links.
-/

namespace PRpc

open Spec

variable {V E SC Ctx : Type}

/-! ### The whole messages on their way to the client -/

def ne (l : List Bytes) : List Bytes := l.filter fun b => !b.isEmpty

theorem ne_append (a b : List Bytes) : ne (a ++ b) = ne a ++ ne b := List.filter_append ..
theorem ne_nil : ne [[]] = [] := rfl
theorem ne_one {b : Bytes} (h : b ≠ []) : ne [b] = [b] := by
  simp [ne, List.isEmpty_iff, h]
theorem ne_cons {b : Bytes} (h : b ≠ []) (l : List Bytes) : ne (b :: l) = b :: ne l := by
  simp [ne, List.filter_cons, List.isEmpty_iff, h]
theorem ne_cons_nil (l : List Bytes) : ne ([] :: l) = ne l := by simp [ne]

/-- What the send under way and the unfinished transfer will amount to. -/
def UsbSys.rest (u : UsbSys V E SC Ctx) : List Bytes :=
  match u.sending with
  | none => ne [u.cur]
  | some w => (if w.zlp = true then ne [u.cur] else []) ++ w.o.part w.b

/-- The composed system it stands for. -/
def UsbSys.abs (u : UsbSys V E SC Ctx) : Sys V E SC Ctx := { u.sys with air := ne u.sys.air ++ u.rest }

theorem part_some {o : Out V} {b : Bytes} (hb : b ≠ []) {n : Nat} (h : o.cut.map (fun m => min m b.length) = some n) :
    o.part b = ne [b.take n] := by
  obtain ⟨m, h1, h2⟩ := Option.map_eq_some_iff.mp h
  unfold Out.part
  rw [h1]
  have hp := List.length_pos_iff.mpr hb
  cases m with
  | zero => simp only [Nat.zero_min] at h2; subst h2; rfl
  | succ m =>
    subst h2
    have e : b.take (min (m + 1) b.length) = b.take (m + 1) := by
      rw [← List.take_take, List.take_of_length_le (Nat.le_refl _)]
    have hne : b.take (m + 1) ≠ [] := by
      intro h
      have := congrArg List.length h
      simp only [List.length_take, List.length_nil] at this
      omega
    rw [e, ne_one hne]
    rfl

theorem part_none {o : Out V} {b : Bytes} (hb : b ≠ []) (h : o.cut.map (fun m => min m b.length) = none) : o.part b = ne [b] := by
  have : o.cut = none := by simpa using h
  unfold Out.part
  rw [this, ne_one hb]

/-! ### The invariant -/

/-- The send under way: it is recorded, what is left to write are the packets of the rest of the frame, and the host's transfer
holds what was written. -/
structure SendInv (S : SysCfg V E SC Ctx) (u : UsbSys V E SC Ctx) (w : Sending V) : Prop where
  out : w.o ∈ u.sys.outs
  bytes : frame_bytes S.enc w.o.frame = .ok w.b
  todo : w.todo = host_packets (w.b.drop w.out)
  full : 64 ∣ w.out
  le : w.out ≤ w.b.length
  first : w.zlp = true → w.out = 0 ∧ u.pending_frame = true
  cur : w.zlp = false → u.cur = w.b.take w.out

structure UsbInv (S : SysCfg V E SC Ctx) (u : UsbSys V E SC Ctx) : Prop where
  taken : u.sys.taken ≤ u.sys.client.tx.length
  stream : ∃ fp : List Bytes, (∀ q ∈ fp, q.length = 64) ∧ (∀ got, u.rx = .filling got → got = fp.flatten) ∧
    fp ++ u.ep_out ++ u.bus_out = (u.sys.client.tx.drop u.sys.taken).flatMap host_packets
  idle : u.sending = none → u.pending_frame = false → u.cur = []
  send : ∀ w, u.sending = some w → SendInv S u w

theorem usbInv_new (S : SysCfg V E SC Ctx) (c : Ctx) : UsbInv S (UsbSys.new c : UsbSys V E SC Ctx) where
  taken := Nat.le_refl _
  stream := ⟨[], (by intro q h; cases h), (by intro got h; cases h; rfl), rfl⟩
  idle := fun _ _ => rfl
  send := fun w h => nomatch h

theorem abs_new (c : Ctx) : (UsbSys.new c : UsbSys V E SC Ctx).abs = Sys.new c := rfl

theorem bytes_ne {S : SysCfg V E SC Ctx} {f : Frame V} {b : Bytes} (h : frame_bytes S.enc f = .ok b) : b ≠ [] := by
  rw [frame_bytes_eq] at h
  cases h
  intro h
  have := congrArg List.length h
  simp [encOf] at this

theorem small_bytes {S : SysCfg V E SC Ctx} {s : Sys V E SC Ctx} (hs : Small S s) {o : Out V} (ho : o ∈ s.outs) {b : Bytes}
    (h : frame_bytes S.enc o.frame = .ok b) : b.length < 1024 := by
  refine hs o ho b ?_
  rw [frame_bytes_eq] at h
  cases h
  simp only [IsFrame, List.map_append, encOf_layout]

/-! ### The simulation, label by label -/

/-- The step of the composed system a step stands for, if any. -/
inductive Stands : ULabel V → SLabel V → Prop where
  | client (l : Label) : Stands (.client l) (.client l)
  | serve : Stands .dev_read .serve
  | reject : Stands .dev_read .reject
  | flush : Stands .flush .flush
  | task_reply (i : Nat) (v : V) : Stands (.task_reply i v) (.task_reply i v)
  | app_publish (key : Key) (seq : VarSeq) (v : V) : Stands (.app_publish key seq v) (.app_publish key seq v)

theorem abs_air (u : UsbSys V E SC Ctx) : u.abs.air = ne u.sys.air ++ u.rest := rfl

/-- A step of the client leaves everything else alone. -/
theorem client_step_cases {S : SysCfg V E SC Ctx} {s s' : Sys V E SC Ctx} {l : Label} (h : client_step S s l = some s') :
    ∃ c, step S.cfg s.client l = some c ∧
      ((∃ b air, l = .in_recv (some b) ∧ s.air = b :: air ∧ s' = { s with client := c, air := air }) ∨
       ((∀ b, l ≠ .in_recv (some b)) ∧ s' = { s with client := c })) := by
  unfold client_step at h
  split at h
  · split at h
    · cases h
    · rename_i ha
      split at h
      · rename_i e
        subst e
        split at h
        · rename_i c hc
          cases h
          exact ⟨c, hc, .inl ⟨_, _, rfl, ha, rfl⟩⟩
        · cases h
      · cases h
  · rename_i hne
    split at h
    · rename_i c hc
      cases h
      exact ⟨c, hc, .inr ⟨fun b e => hne b e, rfl⟩⟩
    · cases h

theorem client_step_other {S : SysCfg V E SC Ctx} {s : Sys V E SC Ctx} {l : Label} {c : Client} (hne : ∀ b, l ≠ .in_recv (some b))
    (h : step S.cfg s.client l = some c) : client_step S s l = some { s with client := c } := by
  unfold client_step
  split
  · exact absurd rfl (hne _)
  · rw [h]

/-- Only taking a frame from the queue hands something to the transport. -/
theorem step_tx_same {cfg : Cfg} {s s' : Client} {l : Label} (hl : l ≠ .out_recv) (h : step cfg s l = some s') : s'.tx = s.tx := by
  cases l with
  | out_recv => exact absurd rfl hl
  | _ =>
    simp only [step, send_resp_begin, call_reg_ok, call_reg_err, call_send, call_take, publish_raw_begin, pub_send,
      out_poll, out_done, in_poll, in_recv, in_lookup, in_full_send, in_full_timeout, after_lookup, in_wake,
      Client.set_phase, Client.drop_waits] at h
    repeat' split at h
    all_goals first
      | (cases h; done)
      | (cases h; rfl)
      | (cases h; split <;> rfl)

theorem u_client_cases {U : UsbCfg V E SC Ctx} {u u' : UsbSys V E SC Ctx} {l : Label} (h : u_client U u l = some u') :
    ∃ s, client_step U.S u.sys l = some s ∧
      ((l = .out_recv ∧ u' = { u with sys := s, bus_out := u.bus_out ++ (s.client.tx.drop u.sys.client.tx.length).flatMap host_packets }) ∨
       (l ≠ .out_recv ∧ (l = .out_done true → u.bus_out = []) ∧ u' = { u with sys := s })) := by
  unfold u_client at h
  split at h
  · cases h
  · rename_i s hs
    refine ⟨s, hs, ?_⟩
    split at h
    · cases h; exact .inl ⟨rfl, rfl⟩
    · split at h
      · rename_i h0
        cases h
        exact .inr ⟨by simp, fun _ => List.length_eq_zero_iff.mp h0, rfl⟩
      · cases h
    · rename_i h1 h2
      cases h
      exact .inr ⟨h1, fun e => absurd e h2, rfl⟩

theorem sim_client {U : UsbCfg V E SC Ctx} {u u' : UsbSys V E SC Ctx} {l : Label} (inv : UsbInv U.S u) (h : u_client U u l = some u') :
    UsbInv U.S u' ∧ ((l = .in_recv (some []) ∧ u'.abs = u.abs ∧ u.sys.air = [] :: u'.sys.air ∧ u'.sys.client = u.sys.client) ∨ sys_step U.S u.abs (.client l) = some u'.abs) := by
  obtain ⟨s, hs, hu⟩ := u_client_cases h
  obtain ⟨c, hc, hcl⟩ := client_step_cases hs
  obtain ⟨fp, f1, f2, f3⟩ := inv.stream
  have hpart : s.taken = u.sys.taken ∧ s.outs = u.sys.outs ∧ s.client = c := by
    rcases hcl with ⟨b, air, _, _, rfl⟩ | ⟨_, rfl⟩ <;> exact ⟨rfl, rfl, rfl⟩
  obtain ⟨p1, p2, p3⟩ := hpart
  have sinv : ∀ w, u.sending = some w → ∀ x : List Bytes, SendInv U.S { u with sys := s, bus_out := x } w := by
    intro w hw x
    have i := inv.send w hw
    exact ⟨by show w.o ∈ s.outs; rw [p2]; exact i.out, i.bytes, i.todo, i.full, i.le, i.first, i.cur⟩
  obtain ⟨x, hx⟩ := step_tx hc
  have ht := inv.taken
  have i' : UsbInv U.S u' := by
    rcases hu with ⟨_, rfl⟩ | ⟨hl, _, rfl⟩
    · refine ⟨?_, ⟨fp, f1, f2, ?_⟩, inv.idle, fun w hw => sinv w hw _⟩
      · show s.taken ≤ s.client.tx.length
        rw [p1, p3, hx, List.length_append]; omega
      · show fp ++ u.ep_out ++ (u.bus_out ++ (s.client.tx.drop u.sys.client.tx.length).flatMap host_packets) =
          (s.client.tx.drop s.taken).flatMap host_packets
        rw [← List.append_assoc, f3, p1, p3, hx, List.drop_left' rfl, List.drop_append_of_le_length ht, List.flatMap_append]
    · have := step_tx_same hl hc
      refine ⟨?_, ⟨fp, f1, f2, ?_⟩, inv.idle, fun w hw => sinv w hw _⟩
      · show s.taken ≤ s.client.tx.length
        rw [p1, p3, this]; exact ht
      · show fp ++ u.ep_out ++ u.bus_out = (s.client.tx.drop s.taken).flatMap host_packets
        rw [f3, p1, p3, this]
  refine ⟨i', ?_⟩
  have hsys : u'.sys = s := by rcases hu with ⟨_, rfl⟩ | ⟨_, _, rfl⟩ <;> rfl
  have hrest : u'.rest = u.rest := by rcases hu with ⟨_, rfl⟩ | ⟨_, _, rfl⟩ <;> rfl
  rcases hcl with ⟨b, air, rfl, hair, rfl⟩ | ⟨hne, rfl⟩
  · by_cases hb : b = []
    · subst hb
      left
      have hcc : c = u.sys.client := by
        simp only [step, in_recv] at hc
        split at hc
        · have : VarHeader.take_from_slice [] = .ok none := rfl
          rw [this] at hc
          cases hc; rfl
        · cases hc
      refine ⟨rfl, ?_, by rw [hsys]; exact hair, by rw [hsys]; exact hcc⟩
      unfold UsbSys.abs
      rw [hrest, hsys, hair, ne_cons_nil, hcc]
    · right
      simp only [sys_step, client_step, abs_air, hair, ne_cons hb, List.cons_append, if_true]
      rw [show u.abs.client = u.sys.client from rfl, hc]
      unfold UsbSys.abs
      rw [hrest, hsys]
  · right
    simp only [sys_step]
    rw [client_step_other hne (s := u.abs) hc]
    unfold UsbSys.abs
    rw [hrest, hsys]

theorem sim_packet {U : UsbCfg V E SC Ctx} {u u' : UsbSys V E SC Ctx} (inv : UsbInv U.S u) (h : u_host_packet U u = some u') :
    UsbInv U.S u' ∧ u'.abs = u.abs ∧ u'.sys = u.sys ∧ u'.sending = u.sending ∧ u'.pending_frame = u.pending_frame ∧
      u'.rx = u.rx ∧ ∃ p ps, u.bus_out = p :: ps ∧ u'.bus_out = ps ∧ u'.ep_out = u.ep_out ++ [p] := by
  unfold u_host_packet at h
  split at h
  · cases h
  · rename_i p ps hb
    split at h
    · cases h
      obtain ⟨fp, f1, f2, f3⟩ := inv.stream
      refine ⟨⟨inv.taken, ⟨fp, f1, f2, ?_⟩, inv.idle, fun w hw => ?_⟩, rfl, rfl, rfl, rfl, rfl, p, ps, hb, rfl, rfl⟩
      · show fp ++ (u.ep_out ++ [p]) ++ ps = _
        rw [← f3, hb]; simp
      · have i := inv.send w hw
        exact ⟨i.out, i.bytes, i.todo, i.full, i.le, i.first, i.cur⟩
    · cases h

theorem serve_message_serve {S : SysCfg V E SC Ctx} {s : Sys V E SC Ctx} {b : Bytes} (hu : s.up = true) (hp : s.pending = [])
    (hb : s.client.tx[s.taken]? = some b) : serve S s = serve_message S s b := by
  simp only [serve, hu, hp, List.length_nil, and_self, if_true, hb]
  rfl

theorem serve_message_some {S : SysCfg V E SC Ctx} {s s' : Sys V E SC Ctx} {b : Bytes} (h : serve_message S s b = some s') :
    ∃ up srv, s' = s.served S up srv ∧ ∀ air, serve_message S { s with air := air } b = some (Sys.served S { s with air := air } up srv) := by
  unfold serve_message at h
  split at h
  · rename_i srv hr
    cases h
    exact ⟨true, srv, rfl, fun air => by simp only [serve_message, hr]⟩
  · rename_i srv hr
    cases h
    exact ⟨false, srv, rfl, fun air => by simp only [serve_message, hr]⟩
  · cases h
  · cases h

theorem sim_read {U : UsbCfg V E SC Ctx} {u u' : UsbSys V E SC Ctx} (hB : 64 ∣ U.rxlen) (hpos : 0 < U.rxlen) (inv : UsbInv U.S u)
    (h : u_read U u = some u') :
    UsbInv U.S u' ∧ u'.bus_out = u.bus_out ∧ (∃ p, u.ep_out = p :: u'.ep_out) ∧ u'.sending = u.sending ∧
      u'.pending_frame = u.pending_frame ∧ u'.sys.outs = u.sys.outs ∧ u'.sys.client = u.sys.client ∧
      ((u'.abs = u.abs ∧ u'.sys = u.sys ∧ (u'.rx = .draining → u.rx = .draining ∨ ¬ RequestsFit U u.sys)) ∨
       (u'.rx = .filling [] ∧ sys_step U.S u.abs .serve = some u'.abs) ∨
       (u'.rx = .filling [] ∧ sys_step U.S u.abs .reject = some u'.abs ∧ (u.rx = .draining ∨ ¬ RequestsFit U u.sys))) := by
  unfold u_read at h
  split at h
  · rename_i hc
    obtain ⟨hup, hpe, _⟩ := hc
    have hpend : u.sys.pending = [] := List.length_eq_zero_iff.mp hpe
    split at h
    · cases h
    · rename_i p ps hep
      obtain ⟨fp, f1, f2, f3⟩ := inv.stream
      rw [hep] at f3
      -- the message under way
      have hne : u.sys.client.tx.drop u.sys.taken ≠ [] := by
        intro e
        rw [e] at f3
        simp at f3
      obtain ⟨m, ms, hm⟩ : ∃ m ms, u.sys.client.tx.drop u.sys.taken = m :: ms := by
        cases e : u.sys.client.tx.drop u.sys.taken with
        | nil => exact absurd e hne
        | cons m ms => exact ⟨m, ms, rfl⟩
      have hlt : u.sys.taken < u.sys.client.tx.length := by
        rcases Nat.lt_or_ge u.sys.taken u.sys.client.tx.length with h | h
        · exact h
        · exact absurd (List.drop_eq_nil_of_le h) hne
      have hget : u.sys.client.tx[u.sys.taken]? = some m := by
        have := congrArg (fun l => l[0]?) hm
        simpa [List.getElem?_drop] using this
      have hmem : m ∈ u.sys.client.tx := List.mem_of_getElem? hget
      have hdrop : u.sys.client.tx.drop (u.sys.taken + 1) = ms := by
        rw [← List.tail_drop, hm]; rfl
      rw [hm, List.flatMap_cons] at f3
      have hple : p.length ≤ 64 := by
        have hmem : p ∈ host_packets m ++ ms.flatMap host_packets := by rw [← f3]; simp
        rcases List.mem_append.mp hmem with h1 | h1
        · exact host_packets_le _ _ h1
        · obtain ⟨x, _, h2⟩ := List.mem_flatMap.mp h1
          exact host_packets_le _ _ h2
      have sinv : ∀ w, u.sending = some w → ∀ (s : Sys V E SC Ctx) (x : List Bytes) (r : DevRx), s.outs = u.sys.outs →
          SendInv U.S { u with sys := s, ep_out := x, rx := r } w := by
        intro w hw s x r e
        have i := inv.send w hw
        exact ⟨by show w.o ∈ s.outs; rw [e]; exact i.out, i.bytes, i.todo, i.full, i.le, i.first, i.cur⟩
      have f3' : fp ++ p :: (ps ++ u.bus_out) = host_packets m ++ ms.flatMap host_packets := by rw [← f3]; simp
      have hfits : ∀ r, RequestsFit U u.sys → u.rx = .filling fp.flatten →
          rx_step U.lost U.rxlen u.rx p ≠ .done none r ∧ rx_step U.lost U.rxlen u.rx p ≠ .more .draining := by
        intro r hfit hr
        rw [hr]
        refine rx_step_fits hB f1 hple ?_ r
        have hml := hfit m hmem
        by_cases hp64 : p.length = 64
        · right
          refine ⟨hp64, ?_⟩
          -- the packet belongs to `m`
          have f1' : ∀ q ∈ fp ++ [p], q.length = 64 := by
            intro q hq
            rcases List.mem_append.mp hq with h | h
            · exact f1 q h
            · rw [List.mem_singleton.mp h]; exact hp64
          have hnil : ps ++ u.bus_out ≠ [] := by
            intro e
            have h1 : (fp ++ [p]) = (m :: ms).flatMap host_packets := by rw [List.flatMap_cons, ← f3', e]
            exact absurd (stream_full f1' h1) (by simp)
          obtain ⟨t, ht⟩ := stream_more f1' (X := ps ++ u.bus_out) (by rw [← f3']; simp) hnil
          have : m.length = (fp ++ [p]).flatten.length + t.length := by rw [ht, List.length_append]
          simp only [List.flatten_append, List.flatten_cons, List.flatten_nil, List.append_nil, List.length_append] at this
          rw [List.length_append]
          omega
        · left
          obtain ⟨h1, _, _⟩ := stream_split f1 hp64 f3'
          rw [← h1]; exact hml
      have drainOr : u.rx = .draining ∨ u.rx = .filling fp.flatten := by
        cases e : u.rx with
        | draining => exact .inl rfl
        | filling got => right; rw [f2 got e]
      rcases rx_step_cases (lost := U.lost) hB hpos f1 hple u.rx f2 with ⟨hp64, hstep⟩ | ⟨hp64, hstep⟩
      · -- the message goes on
        have f1' : ∀ q ∈ fp ++ [p], q.length = 64 := by
          intro q hq
          rcases List.mem_append.mp hq with h | h
          · exact f1 q h
          · rw [List.mem_singleton.mp h]; exact hp64
        have str : ∀ r : DevRx, (∀ got, r = .filling got → got = (fp ++ [p]).flatten) →
            UsbInv U.S { u with ep_out := ps, rx := r } := fun r hr =>
          ⟨inv.taken, ⟨fp ++ [p], f1', hr, by
            show (fp ++ [p]) ++ ps ++ u.bus_out = _
            rw [hm, List.flatMap_cons, ← f3']; simp⟩, inv.idle, fun w hw => sinv w hw _ _ _ rfl⟩
        rcases hstep with e | e
        · rw [e] at h
          cases h
          refine ⟨str _ (fun got h => by cases h), rfl, ⟨p, hep⟩, rfl, rfl, rfl, rfl, .inl ⟨rfl, rfl, fun _ => ?_⟩⟩
          rcases drainOr with h | h
          · exact .inl h
          · exact .inr fun hfit => (hfits false hfit h).2 e
        · rw [e] at h
          cases h
          exact ⟨str _ (fun got h => by cases h; rfl), rfl, ⟨p, hep⟩, rfl, rfl, rfl, rfl, .inl ⟨rfl, rfl, fun h => by cases h⟩⟩
      · -- the message is complete
        obtain ⟨h1, h2, _⟩ := stream_split f1 hp64 f3'
        have str : ∀ s : Sys V E SC Ctx, s.taken = u.sys.taken + 1 → s.client = u.sys.client → s.outs = u.sys.outs →
            UsbInv U.S { u with sys := s, ep_out := ps, rx := .filling [] } := by
          intro s e1 e2 e3
          refine ⟨by show s.taken ≤ s.client.tx.length; rw [e1, e2]; omega, ⟨[], (by intro q h; cases h), (by intro got h; cases h; rfl), ?_⟩,
            inv.idle, fun w hw => sinv w hw _ _ _ e3⟩
          show [] ++ ps ++ u.bus_out = (s.client.tx.drop s.taken).flatMap host_packets
          rw [e1, e2, hdrop, ← h2]; rfl
        rcases hstep with e | e
        · rw [e] at h
          cases h
          refine ⟨str _ rfl rfl rfl, rfl, ⟨p, hep⟩, rfl, rfl, rfl, rfl, .inr (.inr ⟨rfl, ?_, ?_⟩)⟩
          · have : u.abs.up = true ∧ u.abs.pending.length = 0 ∧ u.abs.taken < u.abs.client.tx.length := ⟨hup, hpe, hlt⟩
            simp only [sys_step, reject, if_pos this]
            rfl
          · rcases drainOr with h | h
            · exact .inl h
            · exact .inr fun hfit => (hfits false hfit h).1 e
        · rw [e] at h
          simp only at h
          split at h
          · rename_i s hs
            obtain ⟨up', srv, rfl, hair⟩ := serve_message_some hs
            cases h
            refine ⟨str _ rfl rfl rfl, rfl, ⟨p, hep⟩, rfl, rfl, rfl, rfl, .inr (.inl ⟨rfl, ?_⟩)⟩
            have hb : u.abs.client.tx[u.abs.taken]? = some (fp.flatten ++ p) := by rw [← h1]; exact hget
            simp only [sys_step]
            rw [serve_message_serve (s := u.abs) hup hpend hb]
            unfold UsbSys.abs
            rw [hair]
            rfl
          · cases h
  · cases h

/-! ### Sends of the device -/

theorem sim_begin {U : UsbCfg V E SC Ctx} {u u' : UsbSys V E SC Ctx} {s : Sys V E SC Ctx} {o : Out V} (inv : UsbInv U.S u)
    (e1 : s.client = u.sys.client) (e2 : s.taken = u.sys.taken) (e3 : s.outs = u.sys.outs) (e4 : s.air = u.sys.air)
    (h : u_begin U u s o = some u') :
    UsbInv U.S u' ∧ Sys.put U.S { s with air := u.abs.air } o = some u'.abs ∧ u.sending = none ∧
      u'.sys = { s with outs := s.outs ++ [o] } ∧ u'.bus_out = u.bus_out ∧ u'.ep_out = u.ep_out ∧ u'.rx = u.rx ∧
      u'.pending_frame = u.pending_frame ∧ ∃ w, u'.sending = some w ∧ w.o = o := by
  unfold u_begin at h
  split at h
  · cases h
  · rename_i hs
    split at h
    · cases h
    · rename_i b hb
      cases h
      obtain ⟨fp, f1, f2, f3⟩ := inv.stream
      refine ⟨⟨?_, ⟨fp, f1, f2, ?_⟩, (fun h => nomatch h), fun w hw => ?_⟩, ?_, hs, rfl, rfl, rfl, rfl, rfl, _, rfl, rfl⟩
      · show s.taken ≤ s.client.tx.length
        rw [e1, e2]; exact inv.taken
      · show fp ++ u.ep_out ++ u.bus_out = (s.client.tx.drop s.taken).flatMap host_packets
        rw [e1, e2]; exact f3
      · cases hw
        refine ⟨List.mem_append_right _ (List.mem_singleton.mpr rfl), hb, ?_, ⟨0, rfl⟩, Nat.zero_le _, fun h => ⟨rfl, h⟩, fun h => ?_⟩
        · show dev_packets b = host_packets (b.drop 0)
          rw [dev_packets_eq, List.drop_zero]
        · exact inv.idle hs h
      · simp only [Sys.put, hb, Option.some.injEq]
        unfold UsbSys.abs UsbSys.rest
        simp only [hs, e4]
        cases hp : u.pending_frame with
        | true => simp
        | false => rw [inv.idle hs hp, ne_nil]; simp

theorem sim_refuse {U : UsbCfg V E SC Ctx} {u u' : UsbSys V E SC Ctx} (inv : UsbInv U.S u) (h : u_refuse u = some u') :
    UsbInv U.S u' ∧ u'.abs = u.abs ∧ u'.sys = u.sys := by
  unfold u_refuse at h
  split at h
  · cases h
  · rename_i w hw
    split at h
    · rename_i hc
      obtain ⟨h1, h2, h3⟩ := hc
      cases h
      have i := inv.send w hw
      have hcur : u.pending_frame = false → u.cur = [] := by
        intro hp
        rw [i.cur (h2.trans hp), h1]; rfl
      obtain ⟨fp, f1, f2, f3⟩ := inv.stream
      refine ⟨⟨inv.taken, ⟨fp, f1, f2, f3⟩, fun _ => hcur, fun w h => nomatch h⟩, ?_, rfl⟩
      unfold UsbSys.abs UsbSys.rest
      simp only [hw]
      have hpart := part_some (bytes_ne i.bytes) h3
      rw [hpart, List.take_zero, ne_nil, h2]
      cases hp : u.pending_frame with
      | true => simp
      | false => rw [hcur hp]; simp [ne_nil]
    · cases h

theorem host_get_short {u : UsbSys V E SC Ctx} {p : Bytes} (h : p.length < 64) :
    host_get u p = { u with sys := { u.sys with air := u.sys.air ++ [u.cur ++ p] }, cur := [] } := by
  unfold host_get; rw [if_pos (.inl h)]

theorem host_get_full {u : UsbSys V E SC Ctx} {p : Bytes} (h : ¬ p.length < 64) (h2 : (u.cur ++ p).length < 1024) :
    host_get u p = { u with cur := u.cur ++ p } := by
  unfold host_get MAX_TRANSFER_SIZE; rw [if_neg (by omega)]

theorem ite_some_some {α : Type} {c : Prop} [Decidable c] {a b : α} (h : (if c then some a else none) = some b) : c ∧ some a = some b := by
  split at h
  · rename_i hc; exact ⟨hc, h⟩
  · cases h

/-- The step of the send under way for which nothing of its frame was written yet, or everything before was. -/
theorem sim_write {U : UsbCfg V E SC Ctx} {u u' : UsbSys V E SC Ctx} {o : WriteOut} (inv : UsbInv U.S u) (hsm : Small U.S u.sys)
    (h : u_write u o = some u') :
    UsbInv U.S u' ∧ u'.abs = u.abs ∧ (∃ x, u'.sys = { u.sys with air := u.sys.air ++ x }) ∧ u'.bus_out = u.bus_out ∧
      u'.ep_out = u.ep_out ∧ u'.rx = u.rx := by
  unfold u_write at h
  split at h
  · cases h
  · rename_i w hw
    have i := inv.send w hw
    have hb := bytes_ne i.bytes
    have hlen := small_bytes hsm i.out i.bytes
    obtain ⟨fp, f1, f2, f3⟩ := inv.stream
    have habs : u.abs = { u.sys with air := ne u.sys.air ++ ((if w.zlp = true then ne [u.cur] else []) ++ w.o.part w.b) } := by
      unfold UsbSys.abs UsbSys.rest
      rw [hw]
    have ended : ∀ (x : List Bytes) (cur' : Bytes),
        ne x ++ ne [cur'] = (if w.zlp = true then ne [u.cur] else []) ++ w.o.part w.b →
        ∀ u'' : UsbSys V E SC Ctx, u'' = { u with sys := { u.sys with air := u.sys.air ++ x }, cur := cur', pending_frame := true, sending := none } →
        UsbInv U.S u'' ∧ u''.abs = u.abs ∧ (∃ x, u''.sys = { u.sys with air := u.sys.air ++ x }) ∧ u''.bus_out = u.bus_out ∧
      u''.ep_out = u.ep_out ∧ u''.rx = u.rx := by
      intro x cur' hx u'' hu
      subst hu
      refine ⟨⟨inv.taken, ⟨fp, f1, f2, f3⟩, (fun _ h => nomatch h), fun w h => nomatch h⟩, ?_, ⟨x, rfl⟩, rfl, rfl, rfl⟩
      rw [habs, ← hx]
      simp [UsbSys.abs, UsbSys.rest, ne_append]
    simp only at h
    split at h
    · -- the empty packet for the frame before
      rename_i hz
      obtain ⟨z1, z2⟩ := i.first hz
      have fail : ∀ gone : Bool, w.fails_at = some w.out →
          some { (if gone = true then host_get u [] else u) with pending_frame := true, sending := none } = some u' →
          UsbInv U.S u' ∧ u'.abs = u.abs ∧ (∃ x, u'.sys = { u.sys with air := u.sys.air ++ x }) ∧ u'.bus_out = u.bus_out ∧
      u'.ep_out = u.ep_out ∧ u'.rx = u.rx := by
        intro gone hf hu
        cases hu
        have hpart := part_some hb hf
        rw [z1, List.take_zero, ne_nil] at hpart
        cases gone with
        | true =>
          refine ended [u.cur] [] ?_ _ ?_
          · rw [hpart, if_pos hz, ne_nil]
          · rw [if_pos rfl, host_get_short (by simp)]; simp
        | false =>
          refine ended [] u.cur ?_ _ ?_
          · rw [hpart, if_pos hz]; simp [ne]
          · simp
      cases o with
      | ok =>
        simp only at h
        split at h
        · cases h
          rw [host_get_short (by simp)]
          refine ⟨⟨inv.taken, ⟨fp, f1, f2, f3⟩, (fun h => nomatch h), fun w' hw' => ?_⟩, ?_, ⟨_, rfl⟩, rfl, rfl, rfl⟩
          · cases hw'
            exact ⟨i.out, i.bytes, i.todo, i.full, i.le, (fun h => nomatch h), fun _ => by rw [z1]; rfl⟩
          · rw [habs]
            simp [UsbSys.abs, UsbSys.rest, ne_append, hz]
        · cases h
      | err gone =>
        simp only at h
        split at h
        · rename_i hc; exact fail gone hc.1 h
        · cases h
      | cut gone =>
        simp only at h
        split at h
        · rename_i hc; exact fail gone hc.1 h
        · cases h
    · rename_i hz
      have hz : w.zlp = false := by simpa using hz
      have hcur := i.cur hz
      split at h
      · cases h
      · rename_i p rest htodo
        have hle := i.le
        have hfull := i.full
        have hpk : host_packets (w.b.drop w.out) = p :: rest := i.todo ▸ htodo
        have habs' : u.abs = { u.sys with air := ne u.sys.air ++ w.o.part w.b } := by rw [habs, hz]; simp
        -- what the transfer holds with the packet
        have hcurp : u.cur ++ p = w.b.take (w.out + p.length) ∧ (p.length < 64 → u.cur ++ p = w.b ∧ rest = []) ∧
            (¬ p.length < 64 → p.length = 64 ∧ rest = host_packets (w.b.drop (w.out + p.length)) ∧ w.out + p.length ≤ w.b.length) := by
          rcases host_packets_cons hpk with ⟨p1, p2, p3, p4⟩ | ⟨p1, p2, p3⟩
          · rw [List.length_drop] at p4
            refine ⟨?_, fun h => absurd h (by omega), fun _ => ⟨p1, ?_, by omega⟩⟩
            · rw [hcur, p1, List.take_add]; congr 1
            · rw [p3, p1, List.drop_drop]
          · have hl : p.length = w.b.length - w.out := by rw [p2, List.length_drop]
            have hall : u.cur ++ p = w.b := by rw [hcur, p2, List.take_append_drop]
            refine ⟨?_, fun _ => ⟨hall, p3⟩, fun h => absurd p1 h⟩
            rw [hall, List.take_of_length_le (by omega)]
        obtain ⟨c1, c2, c3⟩ := hcurp
        have hclen : ¬ p.length < 64 → (u.cur ++ p).length < 1024 := by
          intro h
          have := (c3 h).2.2
          rw [c1, List.length_take]; omega
        have fail : ∀ gone : Bool, w.fails_at = some (w.out + if gone = true then p.length else 0) →
            some { (if gone = true then host_get u p else u) with pending_frame := true, sending := none } = some u' →
            UsbInv U.S u' ∧ u'.abs = u.abs ∧ (∃ x, u'.sys = { u.sys with air := u.sys.air ++ x }) ∧ u'.bus_out = u.bus_out ∧
      u'.ep_out = u.ep_out ∧ u'.rx = u.rx := by
          intro gone hf hu
          cases hu
          have hpart := part_some hb hf
          cases gone with
          | true =>
            rw [if_pos rfl, ← c1] at hpart
            by_cases hsh : p.length < 64
            · refine ended [u.cur ++ p] [] ?_ _ ?_
              · rw [hpart, hz, ne_nil]; simp
              · rw [if_pos rfl, host_get_short hsh]
            · refine ended [] (u.cur ++ p) ?_ _ ?_
              · rw [hpart, hz]; simp [ne]
              · rw [if_pos rfl, host_get_full hsh (hclen hsh)]; simp
          | false =>
            refine ended [] u.cur ?_ _ ?_
            · rw [hpart, hz, hcur]; simp [ne]
            · simp
        cases o with
        | ok =>
          simp only at h
          split at h
          · rename_i hc
            cases h
            by_cases hsh : p.length < 64
            · obtain ⟨d1, d2⟩ := c2 hsh
              subst d2
              have hf : w.fails_at = none := by simpa using hc.2
              have hpart := part_none hb hf
              rw [host_get_short hsh]
              refine ⟨⟨inv.taken, ⟨fp, f1, f2, f3⟩, fun _ _ => rfl, fun w h => nomatch h⟩, ?_, ⟨_, rfl⟩, rfl, rfl, rfl⟩
              rw [habs', hpart, d1]
              simp [u_wrote, UsbSys.abs, UsbSys.rest, ne_append, ne_nil]
            · obtain ⟨d1, d2, d3⟩ := c3 hsh
              rw [host_get_full hsh (hclen hsh)]
              have hrest : ∃ q r, rest = q :: r := by
                cases e : rest with
                | nil => rw [e] at d2; exact absurd d2.symm (host_packets_ne _)
                | cons q r => exact ⟨q, r, rfl⟩
              obtain ⟨q, r, hqr⟩ := hrest
              have hwr : u_wrote { u with cur := u.cur ++ p } { w with out := w.out + p.length, todo := rest } =
                  { u with cur := u.cur ++ p, pending_frame := true, sending := some { w with out := w.out + p.length, todo := rest } } := by
                simp only [u_wrote, hqr]
              rw [hwr]
              refine ⟨⟨inv.taken, ⟨fp, f1, f2, f3⟩, (fun h => nomatch h), fun w' hw' => ?_⟩, ?_, ⟨[], by simp⟩, rfl, rfl, rfl⟩
              · cases hw'
                exact ⟨i.out, i.bytes, d2, by rw [d1]; exact Nat.dvd_add hfull ⟨1, rfl⟩, d3, fun h => absurd (hz.symm.trans h) (by simp), fun _ => c1⟩
              · rw [habs']
                simp [UsbSys.abs, UsbSys.rest, hz]
          · cases h
        | err gone =>
          obtain ⟨hc, h⟩ := ite_some_some h
          exact fail gone hc.1 h
        | cut gone =>
          obtain ⟨hc, h⟩ := ite_some_some h
          exact fail gone hc.1 h

/-! ### Together -/

theorem sim_step {U : UsbCfg V E SC Ctx} {u u' : UsbSys V E SC Ctx} {l : ULabel V} (hB : 64 ∣ U.rxlen) (hpos : 0 < U.rxlen)
    (inv : UsbInv U.S u) (hsm : Small U.S u.sys) (h : u_step U u l = some u') :
    UsbInv U.S u' ∧ (u'.abs = u.abs ∨ ∃ l', Stands l l' ∧ sys_step U.S u.abs l' = some u'.abs) := by
  have snd : ∀ {src : Src} {r : Option E × St V E SC Ctx} {f : Frame V}, u_send U u src r f = some u' →
      UsbInv U.S u' ∧ Sys.send U.S u.abs src r f = some u'.abs := by
    intro src r f h
    unfold u_send at h
    unfold Sys.send
    split at h
    · rename_i e
      obtain ⟨i, hp, _⟩ := sim_begin (s := { u.sys with srv := r.2 }) inv rfl rfl rfl rfl h
      rw [e]
      exact ⟨i, hp⟩
    · rename_i e
      obtain ⟨i, hp, _⟩ := sim_begin (s := { u.sys with srv := r.2 }) inv rfl rfl rfl rfl h
      rw [e]
      exact ⟨i, hp⟩
  cases l with
  | client l =>
    obtain ⟨i, h | h⟩ := sim_client inv h
    · exact ⟨i, .inl h.2.1⟩
    · exact ⟨i, .inr ⟨_, .client l, h⟩⟩
  | host_packet =>
    obtain ⟨i, h, _⟩ := sim_packet inv h
    exact ⟨i, .inl h⟩
  | dev_read =>
    obtain ⟨i, _, _, _, _, _, _, h | h | h⟩ := sim_read hB hpos inv h
    · exact ⟨i, .inl h.1⟩
    · exact ⟨i, .inr ⟨_, .serve, h.2⟩⟩
    · exact ⟨i, .inr ⟨_, .reject, h.2.1⟩⟩
  | flush =>
    simp only [u_step] at h
    split at h
    · cases h
    · rename_i o rest hp
      obtain ⟨i, hput, _⟩ := sim_begin (s := { u.sys with pending := rest }) inv rfl rfl rfl rfl h
      refine ⟨i, .inr ⟨_, .flush, ?_⟩⟩
      simp only [sys_step]
      rw [show u.abs.pending = o :: rest from hp]
      exact hput
  | task_reply i v =>
    simp only [u_step, u_task_reply] at h
    split at h
    · cases h
    · rename_i t ht
      split at h
      · cases h
      · rename_i hrole
        split at h
        · cases h
        · rename_i g hg
          obtain ⟨i, hs⟩ := snd h
          refine ⟨i, .inr ⟨_, .task_reply _ _, ?_⟩⟩
          simp only [sys_step, task_reply]
          rw [show u.abs.tasks = u.sys.tasks from rfl, ht]
          simp only [hrole, hg]
          exact hs
  | app_publish key seq v =>
    obtain ⟨i, hs⟩ := snd h
    exact ⟨i, .inr ⟨_, .app_publish _ _ _, hs⟩⟩
  | dev_write o =>
    obtain ⟨i, h, _⟩ := sim_write inv hsm h
    exact ⟨i, .inl h⟩
  | refuse =>
    obtain ⟨i, h, _⟩ := sim_refuse inv h
    exact ⟨i, .inl h⟩

/-- What was sent is not forgotten. -/
theorem u_step_grows {U : UsbCfg V E SC Ctx} {u u' : UsbSys V E SC Ctx} {l : ULabel V} (h : u_step U u l = some u') :
    (∃ x, u'.sys.outs = u.sys.outs ++ x) ∧ ∃ x, u'.sys.client.tx = u.sys.client.tx ++ x := by
  have beg : ∀ {s : Sys V E SC Ctx} {o : Out V}, s.outs = u.sys.outs → s.client = u.sys.client → u_begin U u s o = some u' →
      (∃ x, u'.sys.outs = u.sys.outs ++ x) ∧ ∃ x, u'.sys.client.tx = u.sys.client.tx ++ x := by
    intro s o e1 e2 h
    unfold u_begin at h
    split at h
    · cases h
    · split at h
      · cases h
      · cases h
        exact ⟨⟨[o], by rw [← e1]⟩, ⟨[], by show s.client.tx = _; rw [e2]; simp⟩⟩
  have snd : ∀ {src : Src} {r : Option E × St V E SC Ctx} {f : Frame V}, u_send U u src r f = some u' →
      (∃ x, u'.sys.outs = u.sys.outs ++ x) ∧ ∃ x, u'.sys.client.tx = u.sys.client.tx ++ x := by
    intro src r f h
    unfold u_send at h
    split at h
    · exact beg (s := { u.sys with srv := r.2 }) rfl rfl h
    · exact beg (s := { u.sys with srv := r.2 }) rfl rfl h
  have same : u'.sys.outs = u.sys.outs → u'.sys.client = u.sys.client →
      (∃ x, u'.sys.outs = u.sys.outs ++ x) ∧ ∃ x, u'.sys.client.tx = u.sys.client.tx ++ x :=
    fun e1 e2 => ⟨⟨[], by simp [e1]⟩, ⟨[], by simp [e2]⟩⟩
  have got : ∀ (v : UsbSys V E SC Ctx) (p : Bytes), (host_get v p).sys.outs = v.sys.outs ∧ (host_get v p).sys.client = v.sys.client := by
    intro v p
    unfold host_get
    split <;> exact ⟨rfl, rfl⟩
  cases l with
  | client l =>
    obtain ⟨s, hs, hu⟩ := u_client_cases h
    obtain ⟨c, hc, hcl⟩ := client_step_cases hs
    have hsys : u'.sys = s := by rcases hu with ⟨_, rfl⟩ | ⟨_, _, rfl⟩ <;> rfl
    rw [hsys]
    obtain ⟨x, hx⟩ := step_tx hc
    rcases hcl with ⟨_, _, _, _, rfl⟩ | ⟨_, rfl⟩
    · exact ⟨⟨[], by simp⟩, x, hx⟩
    · exact ⟨⟨[], by simp⟩, x, hx⟩
  | host_packet =>
    simp only [u_step, u_host_packet] at h
    repeat' split at h
    all_goals first
      | (cases h; done)
      | (cases h; exact same rfl rfl)
  | dev_read =>
    simp only [u_step, u_read] at h
    split at h
    · split at h
      · cases h
      · split at h
        · cases h; exact same rfl rfl
        · split at h
          · rename_i hs
            obtain ⟨_, _, rfl, _⟩ := serve_message_some hs
            cases h
            exact same rfl rfl
          · cases h
        · cases h; exact same rfl rfl
    · cases h
  | flush =>
    simp only [u_step] at h
    split at h
    · cases h
    · rename_i rest _
      exact beg (s := { u.sys with pending := rest }) rfl rfl h
  | task_reply i v =>
    simp only [u_step, u_task_reply] at h
    repeat' split at h
    all_goals first
      | (cases h; done)
      | exact snd h
  | app_publish key seq v => exact snd h
  | dev_write o =>
    simp only [u_step, u_write, u_wrote] at h
    repeat' split at h
    all_goals first
      | (cases h; done)
      | (cases h; exact same (got u _).1 (got u _).2)
      | (cases h; split <;> exact same (got u _).1 (got u _).2)
      | (cases h; exact same rfl rfl)
  | refuse =>
    simp only [u_step, u_refuse] at h
    repeat' split at h
    all_goals first
      | (cases h; done)
      | (cases h; exact same rfl rfl)

theorem u_run_grows {U : UsbCfg V E SC Ctx} {ls : List (ULabel V)} : ∀ {u u' : UsbSys V E SC Ctx}, u_run U ls u = some u' →
    (∃ x, u'.sys.outs = u.sys.outs ++ x) ∧ ∃ x, u'.sys.client.tx = u.sys.client.tx ++ x := by
  induction ls with
  | nil => intro u u' h; cases h; exact ⟨⟨[], by simp⟩, [], by simp⟩
  | cons l ls ih =>
    intro u u' h
    simp only [u_run] at h
    split at h
    · rename_i v hv
      obtain ⟨⟨x, hx⟩, ⟨y, hy⟩⟩ := u_step_grows hv
      obtain ⟨⟨x', hx'⟩, ⟨y', hy'⟩⟩ := ih h
      exact ⟨⟨x ++ x', by rw [hx', hx, List.append_assoc]⟩, ⟨y ++ y', by rw [hy', hy, List.append_assoc]⟩⟩
    · cases h

theorem small_before {S : SysCfg V E SC Ctx} {s s' : Sys V E SC Ctx} (h : Small S s') (hx : ∃ x, s'.outs = s.outs ++ x) : Small S s := by
  obtain ⟨x, hx⟩ := hx
  exact fun o ho => h o (by rw [hx]; exact List.mem_append_left _ ho)

theorem fit_before {U : UsbCfg V E SC Ctx} {s s' : Sys V E SC Ctx} (h : RequestsFit U s') (hx : ∃ x, s'.client.tx = s.client.tx ++ x) :
    RequestsFit U s := by
  obtain ⟨x, hx⟩ := hx
  exact fun b hb => h b (by rw [hx]; exact List.mem_append_left _ hb)

theorem sim_run {U : UsbCfg V E SC Ctx} (hB : 64 ∣ U.rxlen) (hpos : 0 < U.rxlen) {ls : List (ULabel V)} : ∀ {u u' : UsbSys V E SC Ctx},
    UsbInv U.S u → Small U.S u'.sys → u_run U ls u = some u' →
    UsbInv U.S u' ∧ ∃ ls', sys_run U.S ls' u.abs = some u'.abs ∧ ∀ l' ∈ ls', ∃ l ∈ ls, Stands l l' := by
  induction ls with
  | nil => intro u u' inv _ h; cases h; exact ⟨inv, [], rfl, by simp⟩
  | cons l ls ih =>
    intro u u' inv hsm h
    have hg := (u_run_grows h).1
    simp only [u_run] at h
    split at h
    · rename_i v hv
      obtain ⟨i, hs⟩ := sim_step hB hpos inv (small_before hsm hg) hv
      obtain ⟨i', ls', h1, h2⟩ := ih i hsm h
      refine ⟨i', ?_⟩
      rcases hs with e | ⟨l', hst, hs⟩
      · rw [e] at h1
        exact ⟨ls', h1, fun x hx => by obtain ⟨y, hy, hxy⟩ := h2 x hx; exact ⟨y, List.mem_cons_of_mem _ hy, hxy⟩⟩
      · refine ⟨l' :: ls', by simp only [sys_run, hs, h1], fun x hx => ?_⟩
        rcases List.mem_cons.mp hx with rfl | hx
        · exact ⟨l, List.mem_cons_self .., hst⟩
        · obtain ⟨y, hy, hxy⟩ := h2 x hx; exact ⟨y, List.mem_cons_of_mem _ hy, hxy⟩
    · cases h

theorem stands_used {a : App V E SC Ctx} {l : ULabel V} {l' : SLabel V} (h : Stands l l') (hu : UsbUsed a l) : Used a l' := by
  cases h <;> first | exact hu | trivial

end PRpc
