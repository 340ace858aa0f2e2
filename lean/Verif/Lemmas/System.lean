import Verif.Lemmas.SysClient
import Verif.Lemmas.SysServer
import Verif.Props.Errors
/-! The invariant of the composed system. -/

namespace PRpc

open Spec

variable {V E SC Ctx : Type}

/-- Keys of the two parts of a collision-free list have different short forms. -/
theorem distinct_parts {n : Nat} {xs ys : List Key} (d : DistinctAt n (xs ++ ys)) {x y : Key} (hx : x ∈ xs) (hy : y ∈ ys) :
    short n x ≠ short n y := by
  obtain ⟨i, hi, rfl⟩ := List.getElem_of_mem hx
  obtain ⟨j, hj, rfl⟩ := List.getElem_of_mem hy
  have := d i (xs.length + j) (by rw [List.length_append]; omega) (by rw [List.length_append]; omega) (by omega)
  rw [List.getElem_append_left hi, List.getElem_append_right (by omega)] at this
  simpa using this

/-- Keys that differ in all places are apart. -/
theorem apart_of_distinct {n : Nat} {xs ys : List Key} (d : DistinctAt n (xs ++ ys)) : ApartAt n xs ys :=
  ⟨fun _ hx _ hy e => distinct_eq d hx hy e, fun _ hx _ hy => distinct_parts d hx hy⟩

theorem apart_eq {n : Nat} {xs ys : List Key} (d : ApartAt n xs ys) {x y : Key} (hx : x ∈ xs ++ ys) (hy : y ∈ xs ++ ys)
    (h : short n x = short n y) : x = y := d.same x hx y hy h

theorem apart_parts {n : Nat} {xs ys : List Key} (d : ApartAt n xs ys) {x y : Key} (hx : x ∈ xs) (hy : y ∈ ys) :
    short n x ≠ short n y := d.parts x hx y hy

theorem row_unique {n : Nat} {rows : List EpRow} {ys : List Key} (d : DistinctAt n (rows.map (·.req) ++ ys)) {r r' : EpRow}
    (h1 : r ∈ rows) (h2 : r' ∈ rows) (e : short n r.req = short n r'.req) : r = r' := by
  obtain ⟨i, hi, rfl⟩ := List.getElem_of_mem h1
  obtain ⟨j, hj, rfl⟩ := List.getElem_of_mem h2
  by_cases hij : i = j
  · subst hij; rfl
  · refine absurd ?_ (d i j (by simp; omega) (by simp; omega) hij)
    rw [List.getElem_append_left (by simpa using hi), List.getElem_append_left (by simpa using hj)]
    simpa using e

/-- The dispatcher has the handlers of an application, and they are declared. -/
structure Routes (a : App V E SC Ctx) (D : Dispatcher V E SC Ctx) : Prop where
  eps_listed : ∀ e ∈ a.eps.map (fun h => (h.req, h.resp)), e.1 ∈ a.endpoint_list.endpoints.map (·.req) ∧ e.2 ∈ a.endpoint_list.endpoints.map (·.resp)
  tps_listed : ∀ k ∈ a.tps.map (·.key), k ∈ a.topic_in_list.topics.map (·.key)
  std : D.std = a.std
  eps : D.eps = a.eps
  tps : D.tps = a.tps

/-- Besides, the keys of what it receives differ at its key length. -/
structure Receives (a : App V E SC Ctx) (D : Dispatcher V E SC Ctx) : Prop extends Routes a D where
  apart : ApartAt (keyLen D.n) (a.endpoint_list.endpoints.map (·.req)) (a.topic_in_list.topics.map (·.key))

/-- What the properties of client and server need of the dispatcher made for an application: it has the application's handlers,
they are declared, the keys of what it receives differ at its key length, and endpoints of one request key have one response
key. -/
structure Dispatches (a : App V E SC Ctx) (D : Dispatcher V E SC Ctx) : Prop extends Receives a D where
  answers : ∀ r ∈ a.endpoint_list.endpoints, ∀ r' ∈ a.endpoint_list.endpoints, r.req = r'.req → r.resp = r'.resp

theorem dispatches_of {a : App V E SC Ctx} {D : Dispatcher V E SC Ctx}
    (h : DistinctAt (keyLen D.n) (a.endpoint_list.endpoints.map (·.req) ++ a.topic_in_list.topics.map (·.key))) (hr : Routes a D) :
    Dispatches a D :=
  { hr with
    apart := apart_of_distinct h
    answers := fun r hr r' hr' e => by rw [row_unique h hr hr' (congrArg _ e)] }

theorem dispatches {a : App V E SC Ctx} {D : Dispatcher V E SC Ctx} (h : define_dispatch a = .ok D) : Dispatches a D := by
  obtain ⟨hsz, h1, h2, h3⟩ := define_dispatch_ok h
  obtain ⟨_, h4, _, h5, h6⟩ := Props.c10_dispatcher_key_length _ _ hsz
  exact dispatches_of h4 ⟨h5, h6, h1, h2, h3⟩

instance dispatches_coe {a : App V E SC Ctx} {D : Dispatcher V E SC Ctx} : CoeOut (define_dispatch a = .ok D) (Dispatches a D) := ⟨dispatches⟩

instance receives_coe {a : App V E SC Ctx} {D : Dispatcher V E SC Ctx} : CoeOut (Dispatches a D) (Receives a D) := ⟨fun h => h.toReceives⟩

instance routes_coe {a : App V E SC Ctx} {D : Dispatcher V E SC Ctx} : CoeOut (Receives a D) (Routes a D) := ⟨fun h => h.toRoutes⟩

theorem _root_.PRpc.Spec.ForEndpoint.mem {D : Dispatcher V E SC Ctx} {hdr : VarHeader} {h : EpHandler V Ctx} (hf : ForEndpoint D hdr h) :
    h ∈ D.eps := by
  obtain ⟨pre, post, e, _⟩ := hf.first
  rw [e]
  exact List.mem_append.mpr (.inr (List.mem_cons_self ..))

/-- Byte string `j` of the client, as the server decodes it. -/
def Taken (s : Sys V E SC Ctx) (j : Nat) (hdr : VarHeader) (body : Bytes) : Prop :=
  ∃ b, s.client.tx[j]? = some b ∧ VarHeader.take_from_slice b = .ok (some (hdr, body))

/-- Where a frame put on the link comes from. -/
def OutOk (a : App V E SC Ctx) (S : SysCfg V E SC Ctx) (s : Sys V E SC Ctx) (o : Out V) : Prop :=
  match o.src with
  | .req j => ∃ hdr body ctx, Taken s j hdr body ∧ s.before[j]? = some ctx ∧ DispFrame S.disp S.kkind hdr body ctx o.frame
  | .task i => ∃ j t h v, s.tasks[i]? = some (j, t) ∧ t.role = .endpoint ∧ S.disp.eps.find? (fun h => h.name = t.name) = some h ∧
      IsMsg S.kkind h.resp t.hdr.seq_no (.val v) o.frame
  | .app => ∃ r ∈ a.topic_out_list.topics, ∃ seq v, IsMsg S.kkind r.key seq (.val v) o.frame

/-- How much of the frame was sent. -/
def CutOk (S : SysCfg V E SC Ctx) (o : Out V) : Prop := o.cut = none ∨ ∃ l, o.cut = some (S.cut l o.frame)

/-- The invariant with typed and raw calls. -/
structure SysInvR (a : App V E SC Ctx) (S : SysCfg V E SC Ctx) (s : Sys V E SC Ctx) : Prop where
  reach : Reachable S.cfg s.client
  calls : ∀ (c : Nat) cl, s.client.calls[c]? = some cl →
    ∃ r ∈ a.endpoint_list.endpoints, cl.rqst.header.key = .Key8 r.req ∧ cl.resp_key = r.resp
  pubs : ∀ (p : Nat) pb, s.client.pubs[p]? = some pb → ∃ t ∈ a.topic_in_list.topics, pb.orig.header.key = .Key8 t.key
  before : s.before.length = s.taken
  tasks : ∀ (i : Nat) j t, s.tasks[i]? = some (j, t) → s.old ≤ i → ∃ hdr body, Taken s j hdr body ∧ TaskFor S.disp hdr body t
  pend : ∀ o ∈ s.pending, OutOk a S s o
  outs : ∀ o ∈ s.outs, OutOk a S s o
  air : ∀ b ∈ s.air, ∃ o ∈ s.outs, ∃ b', frame_bytes S.enc o.frame = .ok b' ∧ b ∈ o.part b'
  held : Holds (fun f => ∃ o ∈ s.outs, CarriesPart S.enc o f) s.client
  cuts : ∀ o, o ∈ s.pending ∨ o ∈ s.outs → CutOk S o

/-- The invariant with typed calls only. -/
structure SysInv (a : App V E SC Ctx) (S : SysCfg V E SC Ctx) (s : Sys V E SC Ctx) : Prop extends SysInvR a S s where
  typed : ∀ (c : Nat) cl, s.client.calls[c]? = some cl → cl.typed = true

instance {a : App V E SC Ctx} {S : SysCfg V E SC Ctx} {s : Sys V E SC Ctx} : Coe (SysInv a S s) (SysInvR a S s) := ⟨SysInv.toSysInvR⟩

theorem sysInvR_new (a : App V E SC Ctx) (S : SysCfg V E SC Ctx) (c : Ctx) : SysInvR a S (Sys.new c) where
  reach := ⟨[], rfl⟩
  calls := by intro c cl h; simp [Sys.new, Client.new] at h
  pubs := by intro c cl h; simp [Sys.new, Client.new] at h
  before := rfl
  tasks := by intro i j t h; simp [Sys.new] at h
  pend := by intro o h; cases h
  outs := by intro o h; cases h
  air := by intro b h; cases h
  held := ⟨fun f h => by simp [Sys.new, Client.new, InPc.frame] at h, fun f h => by simp [Sys.new, Client.new] at h⟩
  cuts := by intro o h; rcases h with h | h <;> cases h

theorem sysInv_new (a : App V E SC Ctx) (S : SysCfg V E SC Ctx) (c : Ctx) : SysInv a S (Sys.new c) where
  toSysInvR := sysInvR_new a S c
  typed := by intro c cl h; simp [Sys.new, Client.new] at h

/-- The parts an `OutOk` depends on only grow. -/
structure Grows (s s' : Sys V E SC Ctx) : Prop where
  tx : ∃ x, s'.client.tx = s.client.tx ++ x
  before : ∃ x, s'.before = s.before ++ x
  tasks : ∃ x, s'.tasks = s.tasks ++ x
  old : s'.old = s.old

theorem get_append {α : Type} {l l' : List α} (h : ∃ x, l' = l ++ x) {i : Nat} {a : α} (hi : l[i]? = some a) : l'[i]? = some a := by
  obtain ⟨x, rfl⟩ := h
  have : i < l.length := by
    rcases Nat.lt_or_ge i l.length with h | h
    · exact h
    · rw [List.getElem?_eq_none h] at hi; cases hi
  rw [List.getElem?_append_left this, hi]

theorem Taken.mono {s s' : Sys V E SC Ctx} (h : Grows s s') {j : Nat} {hdr : VarHeader} {body : Bytes} (ht : Taken s j hdr body) :
    Taken s' j hdr body := by
  obtain ⟨b, h1, h2⟩ := ht
  exact ⟨b, get_append h.tx h1, h2⟩

theorem OutOk.mono {a : App V E SC Ctx} {S : SysCfg V E SC Ctx} {s s' : Sys V E SC Ctx} (h : Grows s s') {o : Out V}
    (ho : OutOk a S s o) : OutOk a S s' o := by
  unfold OutOk at *
  split
  · rename_i j e
    simp only [e] at ho
    obtain ⟨hdr, body, ctx, h1, h2, h3⟩ := ho
    exact ⟨hdr, body, ctx, h1.mono h, get_append h.before h2, h3⟩
  · rename_i i e
    simp only [e] at ho
    obtain ⟨j, t, hh, v, h1, h2⟩ := ho
    exact ⟨j, t, hh, v, get_append h.tasks h1, h2⟩
  · rename_i e
    simpa only [e] using ho

theorem same_nil {α : Type} (l : List α) : ∃ x, l = l ++ x := ⟨[], (List.append_nil _).symm⟩

/-- Putting a frame on the link. -/
theorem put_inv {a : App V E SC Ctx} {S : SysCfg V E SC Ctx} {s s' : Sys V E SC Ctx} {o : Out V} (h : Sys.put S s o = some s')
    (ho : OutOk a S s o) (hcut : CutOk S o) (inv : SysInvR a S s) : SysInvR a S s' := by
  simp only [Sys.put] at h
  split at h
  · rename_i b hb
    cases h
    have gr : Grows s { s with air := s.air ++ o.part b, outs := s.outs ++ [o] } := ⟨same_nil _, same_nil _, same_nil _, rfl⟩
    exact {
      reach := inv.reach
      calls := inv.calls
      pubs := inv.pubs
      before := inv.before
      tasks := fun i j t h ho => inv.tasks i j t h ho
      pend := fun o h => (inv.pend o h).mono gr
      outs := fun o' h => by
        rcases List.mem_append.mp h with h | h
        · exact (inv.outs o' h).mono gr
        · rw [List.mem_singleton.mp h]; exact ho.mono gr
      air := fun b' h => by
        rcases List.mem_append.mp h with h | h
        · obtain ⟨o', h1, h2⟩ := inv.air b' h
          exact ⟨o', List.mem_append.mpr (.inl h1), h2⟩
        · exact ⟨o, List.mem_append.mpr (.inr (List.mem_singleton.mpr rfl)), b, hb, h⟩
      held := ⟨fun f hf => by
          obtain ⟨o', h1, h2⟩ := inv.held.1 f hf
          exact ⟨o', List.mem_append.mpr (.inl h1), h2⟩, fun f hf => by
          obtain ⟨o', h1, h2⟩ := inv.held.2 f hf
          exact ⟨o', List.mem_append.mpr (.inl h1), h2⟩⟩
      cuts := fun o' h => by
        rcases h with h | h
        · exact inv.cuts o' (.inl h)
        · rcases List.mem_append.mp h with h | h
          · exact inv.cuts o' (.inr h)
          · rw [List.mem_singleton.mp h]; exact hcut }
  · cases h

theorem send_inv {a : App V E SC Ctx} {S : SysCfg V E SC Ctx} {s s' : Sys V E SC Ctx} {src : Src} {r : Option E × St V E SC Ctx}
    {f : Frame V} (h : Sys.send S s src r f = some s') (ho : ∀ cut, OutOk a S s ⟨src, f, cut⟩) (inv : SysInvR a S s) : SysInvR a S s' := by
  simp only [Sys.send] at h
  have inv2 : SysInvR a S { s with srv := r.2 } :=
    ⟨inv.reach, inv.calls, inv.pubs, inv.before, inv.tasks, inv.pend, inv.outs, inv.air, inv.held, inv.cuts⟩
  split at h
  · exact put_inv h (ho _) (.inr ⟨_, rfl⟩) inv2
  · exact put_inv h (ho _) (.inl rfl) inv2

/-- A byte string is the frame of one header and one body only. -/
theorem isFrame_unique {b : Bytes} {h h' : VarHeader} {x y : Bytes} (h1 : IsFrame b h x) (h2 : IsFrame b h' y) : h = h' ∧ x = y := by
  have e := ((isFrame_iff ..).mp h1).symm.trans ((isFrame_iff ..).mp h2)
  cases e
  exact ⟨rfl, rfl⟩

/-- What was received has the header of the frame sent and a beginning of its body. -/
theorem Spec.CarriesPart.begins {enc : Body V → Bytes} {o : Out V} {f : RpcFrame} (h : CarriesPart enc o f) :
    f.header = o.frame.hdr ∧ f.body <+: enc o.frame.body := by
  obtain ⟨b, h1, h2⟩ := h
  split at h2
  · obtain ⟨e1, e2⟩ := isFrame_unique h2 h1
    exact ⟨e1, by rw [e2]; exact List.prefix_rfl⟩
  · rename_i n _
    have h3 : IsFrame b f.header (f.body ++ b.drop n) := by
      unfold IsFrame at h2 ⊢
      rw [List.map_append, ← List.append_assoc, ← h2, ← List.map_append, List.take_append_drop]
    obtain ⟨e1, e2⟩ := isFrame_unique h3 h1
    exact ⟨e1, by rw [← e2]; exact List.prefix_append ..⟩

theorem Spec.CarriesPart.header {enc : Body V → Bytes} {o : Out V} {f : RpcFrame} (h : CarriesPart enc o f) :
    f.header = o.frame.hdr := h.begins.1

theorem Spec.CarriesPart.whole {enc : Body V → Bytes} {o : Out V} {f : RpcFrame} (h : CarriesPart enc o f) (hc : o.cut = none) :
    Carries enc o f := by
  obtain ⟨b, h1, h2⟩ := h
  simp only [hc] at h2
  exact isFrame_unique h2 h1

theorem frame_bytes_eq (enc : Body V → Bytes) (f : Frame V) : frame_bytes enc f = .ok (encOf f.hdr ++ enc f.body) := by
  rw [frame_bytes, write_to_vec_eq]; rfl

/-- A step of the client. -/
theorem client_inv {a : App V E SC Ctx} {S : SysCfg V E SC Ctx} {s : Sys V E SC Ctx} {c : Client} {l : Label} {air : List Bytes}
    (h : step S.cfg s.client l = some c) (hu : UsedRaw a (SLabel.client (V := V) l)) (hair : ∀ b ∈ air, b ∈ s.air)
    (hrecv : ∀ b, l = .in_recv (some b) → b ∈ s.air) (inv : SysInvR a S s) :
    SysInvR a S { s with client := c, air := air } := by
  have gr : Grows s { s with client := c, air := air } := ⟨step_tx h, same_nil _, same_nil _, rfl⟩
  exact {
    reach := reachable_step inv.reach h
    calls := fun i cl hc => by
      rcases step_sig h hc with ⟨cl0, h1, h2⟩ | ⟨req, resp, body, rfl, h2⟩ | ⟨rqst, resp, rfl, h2⟩
      · simp only [Call.sig, Prod.mk.injEq] at h2
        rw [h2.1, h2.2.1]
        exact inv.calls i cl0 h1
      · simp only [Call.sig, Prod.mk.injEq] at h2
        rw [h2.1, h2.2.1]
        obtain ⟨r, hr, e1, e2⟩ := hu
        exact ⟨r, hr, by rw [e1], e2.symm⟩
      · simp only [Call.sig, Prod.mk.injEq] at h2
        rw [h2.1, h2.2.1]
        obtain ⟨r, hr, e1, e2⟩ := hu
        exact ⟨r, hr, e1, e2.symm⟩
    pubs := fun p pb hp => by
      rcases step_pub h hp with ⟨pb0, h1, h2, _⟩ | ⟨f, rfl, h2, _⟩
      · rw [h2]; exact inv.pubs p pb0 h1
      · rw [h2]; exact hu
    before := inv.before
    tasks := fun i j t ht ho => by
      obtain ⟨hdr, body, h1, h2⟩ := inv.tasks i j t ht ho
      exact ⟨hdr, body, h1.mono gr, h2⟩
    pend := fun o ho => (inv.pend o ho).mono gr
    outs := fun o ho => (inv.outs o ho).mono gr
    air := fun b hb => inv.air b (hair b hb)
    held := step_holds h (fun b hdr body e ht => by
      obtain ⟨o, h1, b', h2, h3⟩ := inv.air b (hrecv b e)
      have hf : IsFrame b' o.frame.hdr (S.enc o.frame.body) := by
        rw [frame_bytes_eq] at h2
        cases h2
        exact (isFrame_iff ..).mpr (take_enc ..)
      have hb := (isFrame_iff ..).mpr ht
      refine ⟨o, h1, b', hf, ?_⟩
      unfold Out.part at h3
      split <;> rename_i e <;> rw [e] at h3
      · rw [List.mem_singleton.mp h3] at hb; exact hb
      · rename_i n
        cases n with
        | zero => cases h3
        | succ n => rw [List.mem_singleton.mp h3] at hb; exact hb) inv.held
    cuts := inv.cuts }

theorem sys_step_invR {a : App V E SC Ctx} {S : SysCfg V E SC Ctx} {s s' : Sys V E SC Ctx} {l : SLabel V}
    (h : sys_step S s l = some s') (hu : UsedRaw a l) (inv : SysInvR a S s) : SysInvR a S s' := by
  cases l with
  | client l =>
    simp only [sys_step, client_step] at h
    split at h
    · rename_i b
      split at h
      · cases h
      · rename_i b' air e
        split at h
        · rename_i eb
          subst eb
          split at h
          · rename_i c hc
            cases h
            exact client_inv hc hu (fun x hx => by rw [e]; exact List.mem_cons_of_mem _ hx)
              (fun x hx => by cases hx; rw [e]; exact List.mem_cons_self ..) inv
          · cases h
        · cases h
    · rename_i l hne
      split at h
      · rename_i c hc
        cases h
        exact client_inv hc hu (fun x hx => hx) (fun x hx => (hne x hx).elim) inv
      · cases h
  | serve =>
    obtain ⟨b, up, srv, hb, rfl, hp, ev, h1, h2⟩ := serve_cases h
    have hev : srv.log.drop s.srv.log.length = ev := by rw [h1]; simp
    have gr : Grows s (s.served S up srv) := ⟨same_nil _, ⟨_, rfl⟩, ⟨_, rfl⟩, rfl⟩
    have hbef : (s.served S up srv).before[s.taken]? = some s.srv.ctx := by
      simp only [Sys.served]
      rw [← inv.before, List.getElem?_append_right (Nat.le_refl _)]
      simp
    exact {
      reach := inv.reach
      calls := inv.calls
      pubs := inv.pubs
      before := by simp only [Sys.served, List.length_append, inv.before]; rfl
      tasks := fun i j t ht hold => by
        simp only [Sys.served, hev] at ht
        rcases Nat.lt_or_ge i s.tasks.length with hi | hi
        · rw [List.getElem?_append_left hi] at ht
          obtain ⟨hdr, body, a1, a2⟩ := inv.tasks i j t ht hold
          exact ⟨hdr, body, a1.mono gr, a2⟩
        · rw [List.getElem?_append_right hi] at ht
          obtain ⟨e1, ok, e2⟩ := spawned_ok_mem (List.mem_iff_getElem?.mpr ⟨_, ht⟩)
          simp only at e1 e2
          rcases h2 with rfl | ⟨hdr, body, h3, h4⟩
          · cases e2
          · exact ⟨hdr, body, ⟨b, by rw [e1]; exact hb, h3⟩, h4 _ e2⟩
      pend := fun o ho => by
        simp only [Sys.served, hev] at ho
        obtain ⟨e1, _, by_, r, e2⟩ := sent_ok_mem ho
        rcases h2 with rfl | ⟨hdr, body, h3, h4⟩
        · cases e2
        · unfold OutOk
          rw [e1]
          exact ⟨hdr, body, s.srv.ctx, ⟨b, hb, h3⟩, hbef, h4 _ e2⟩
      outs := fun o ho => (inv.outs o ho).mono gr
      air := inv.air
      held := inv.held
      cuts := fun o ho => by
        rcases ho with ho | ho
        · simp only [Sys.served, hev] at ho
          exact (sent_ok_mem ho).2.1
        · exact inv.cuts o (.inr ho) }
  | reject =>
    simp only [sys_step, reject] at h
    split at h
    · cases h
      have gr : Grows s { s with taken := s.taken + 1, before := s.before ++ [s.srv.ctx] } := ⟨same_nil _, ⟨_, rfl⟩, same_nil _, rfl⟩
      exact {
        reach := inv.reach
        calls := inv.calls
        pubs := inv.pubs
        before := by simp only [List.length_append, inv.before]; rfl
        tasks := fun i j t ht hold => by
          obtain ⟨hdr, body, a1, a2⟩ := inv.tasks i j t ht hold
          exact ⟨hdr, body, a1.mono gr, a2⟩
        pend := fun o ho => (inv.pend o ho).mono gr
        outs := fun o ho => (inv.outs o ho).mono gr
        air := inv.air
        held := inv.held
        cuts := inv.cuts }
    · cases h
  | flush =>
    simp only [sys_step] at h
    split at h
    · cases h
    · rename_i o rest e
      have gr : Grows s { s with pending := rest } := ⟨same_nil _, same_nil _, same_nil _, rfl⟩
      refine put_inv h ((inv.pend o (by rw [e]; exact List.mem_cons_self ..)).mono gr)
        (inv.cuts o (.inl (by rw [e]; exact List.mem_cons_self ..))) ?_
      exact ⟨inv.reach, inv.calls, inv.pubs, inv.before, inv.tasks,
        fun o' ho => (inv.pend o' (by rw [e]; exact List.mem_cons_of_mem _ ho)).mono gr, inv.outs, inv.air, inv.held, fun o' ho => by
          rcases ho with ho | ho
          · exact inv.cuts o' (.inl (by rw [e]; exact List.mem_cons_of_mem _ ho))
          · exact inv.cuts o' (.inr ho)⟩
  | task_reply i v =>
    simp only [sys_step, task_reply] at h
    split at h
    · cases h
    · rename_i j t ht
      split at h
      · cases h
      · rename_i hr
        split at h
        · cases h
        · rename_i hh hf
          refine send_inv h (fun cut => ?_) inv
          exact ⟨j, t, hh, v, ht, hr, hf, (short_shrink _ _).symm, rfl, rfl⟩
  | app_publish key seq v =>
    simp only [sys_step, app_publish] at h
    refine send_inv h (fun cut => ?_) inv
    obtain ⟨r, hr, e⟩ := hu
    refine ⟨r, hr, seq, v, ?_⟩
    rw [e]
    exact ⟨(short_shrink _ _).symm, rfl, rfl⟩

theorem sys_run_invR {a : App V E SC Ctx} {S : SysCfg V E SC Ctx} {ls : List (SLabel V)} {s s' : Sys V E SC Ctx}
    (h : sys_run S ls s = some s') (hu : ∀ l ∈ ls, UsedRaw a l) (inv : SysInvR a S s) : SysInvR a S s' := by
  induction ls generalizing s with
  | nil => cases h; exact inv
  | cons l ls ih =>
    simp only [sys_run] at h
    split at h
    · rename_i s1 hs
      exact ih h (fun x hx => hu x (List.mem_cons_of_mem _ hx)) (sys_step_invR hs (hu l (List.mem_cons_self ..)) inv)
    · cases h

/-- The start of a further session. -/
theorem sysInvR_reconnect (a : App V E SC Ctx) (S : SysCfg V E SC Ctx) (s : Sys V E SC Ctx) : SysInvR a S s.reconnect where
  reach := ⟨[], rfl⟩
  calls := by intro c cl h; simp [Sys.reconnect, Client.new] at h
  pubs := by intro c cl h; simp [Sys.reconnect, Client.new] at h
  before := rfl
  tasks := by
    intro i j t h ho
    rw [List.getElem?_eq_none (show s.reconnect.tasks.length ≤ i from ho)] at h
    cases h
  pend := by intro o h; cases h
  outs := by intro o h; cases h
  air := by intro b h; cases h
  held := ⟨fun f h => by simp [Sys.reconnect, Client.new, InPc.frame] at h, fun f h => by simp [Sys.reconnect, Client.new] at h⟩
  cuts := by intro o h; rcases h with h | h <;> cases h

theorem sysInv_reconnect (a : App V E SC Ctx) (S : SysCfg V E SC Ctx) (s : Sys V E SC Ctx) : SysInv a S s.reconnect where
  toSysInvR := sysInvR_reconnect a S s
  typed := by intro c cl h; simp [Sys.reconnect, Client.new] at h

/-- A step of the composed system is a step of its client or leaves it alone. -/
theorem sys_step_client {S : SysCfg V E SC Ctx} {s s' : Sys V E SC Ctx} {l : SLabel V} (h : sys_step S s l = some s') :
    s'.client = s.client ∨ ∃ l', l = .client l' ∧ step S.cfg s.client l' = some s'.client := by
  have put : ∀ {s s' : Sys V E SC Ctx} {o : Out V}, Sys.put S s o = some s' → s'.client = s.client := by
    intro s s' o h
    simp only [Sys.put] at h
    split at h
    · cases h; rfl
    · cases h
  have send : ∀ {s s' : Sys V E SC Ctx} {src : Src} {r : Option E × St V E SC Ctx} {f : Frame V},
      Sys.send S s src r f = some s' → s'.client = s.client := by
    intro s s' src r f h
    simp only [Sys.send] at h
    split at h <;> (have := put h; exact this)
  cases l with
  | client l =>
    right
    simp only [sys_step, client_step] at h
    split at h
    · split at h
      · cases h
      · split at h
        · split at h
          · rename_i hc; cases h; exact ⟨_, rfl, hc⟩
          · cases h
        · cases h
    · split at h
      · rename_i hc; cases h; exact ⟨_, rfl, hc⟩
      · cases h
  | serve =>
    obtain ⟨_, _, _, _, rfl, _⟩ := serve_cases h
    exact .inl rfl
  | reject =>
    simp only [sys_step, reject] at h
    split at h
    · cases h; exact .inl rfl
    · cases h
  | flush =>
    simp only [sys_step] at h
    split at h
    · cases h
    · have := put h; exact .inl this
  | task_reply i v =>
    simp only [sys_step, task_reply] at h
    repeat' split at h
    all_goals first
      | (cases h; done)
      | exact .inl (send h)
  | app_publish key seq v => exact .inl (send h)

theorem used_raw {a : App V E SC Ctx} {l : SLabel V} (h : Used a l) : UsedRaw a l := by
  cases l with
  | client l =>
    cases l with
    | call_begin_raw => exact h.elim
    | _ => exact h
  | _ => exact h

theorem sys_step_inv {a : App V E SC Ctx} {S : SysCfg V E SC Ctx} {s s' : Sys V E SC Ctx} {l : SLabel V}
    (h : sys_step S s l = some s') (hu : Used a l) (inv : SysInv a S s) : SysInv a S s' := by
  refine ⟨sys_step_invR h (used_raw hu) inv, fun c cl hc => ?_⟩
  rcases sys_step_client h with e | ⟨l', rfl, hl⟩
  · rw [e] at hc; exact inv.typed c cl hc
  · rcases step_sig hl hc with ⟨cl0, h1, h2⟩ | ⟨req, resp, body, rfl, h2⟩ | ⟨rqst, resp, rfl, _⟩
    · simp only [Call.sig, Prod.mk.injEq] at h2
      rw [h2.2.2]
      exact inv.typed c cl0 h1
    · simp only [Call.sig, Prod.mk.injEq] at h2
      exact h2.2.2
    · exact hu.elim

theorem sys_run_inv {a : App V E SC Ctx} {S : SysCfg V E SC Ctx} {ls : List (SLabel V)} {s s' : Sys V E SC Ctx}
    (h : sys_run S ls s = some s') (hu : ∀ l ∈ ls, Used a l) (inv : SysInv a S s) : SysInv a S s' := by
  induction ls generalizing s with
  | nil => cases h; exact inv
  | cons l ls ih =>
    simp only [sys_run] at h
    split at h
    · rename_i s1 hs
      exact ih h (fun x hx => hu x (List.mem_cons_of_mem _ hx)) (sys_step_inv hs (hu l (List.mem_cons_self ..)) inv)
    · cases h

theorem sys_step_old {S : SysCfg V E SC Ctx} {s s' : Sys V E SC Ctx} {l : SLabel V} (h : sys_step S s l = some s') : s'.old = s.old := by
  have put : ∀ {s s' : Sys V E SC Ctx} {o : Out V}, Sys.put S s o = some s' → s'.old = s.old := by
    intro s s' o h
    simp only [Sys.put] at h
    split at h
    · cases h; rfl
    · cases h
  have send : ∀ {src r f}, Sys.send S s src r f = some s' → s'.old = s.old := by
    intro src r f h
    simp only [Sys.send] at h
    split at h
    · have := put h; exact this
    · have := put h; exact this
  cases l with
  | client l =>
    simp only [sys_step, client_step] at h
    repeat' split at h
    all_goals first
      | (cases h; done)
      | (cases h; rfl)
  | serve =>
    obtain ⟨b, up, srv, hb, rfl, hp, _⟩ := serve_cases h
    rfl
  | reject =>
    simp only [sys_step, reject] at h
    split at h
    · cases h; rfl
    · cases h
  | flush =>
    simp only [sys_step] at h
    split at h
    · cases h
    · have := put h; exact this
  | task_reply i v =>
    simp only [sys_step, task_reply] at h
    repeat' split at h
    all_goals first
      | (cases h; done)
      | exact send h
  | app_publish key seq v => exact send h

theorem sys_run_old {S : SysCfg V E SC Ctx} {ls : List (SLabel V)} : ∀ {s s' : Sys V E SC Ctx}, sys_run S ls s = some s' →
    s'.old = s.old := by
  induction ls with
  | nil => intro s s' h; cases h; rfl
  | cons l ls ih =>
    intro s s' h
    simp only [sys_run] at h
    split at h
    · rename_i t ht
      rw [ih h, sys_step_old ht]
    · cases h

theorem sys_run_new_old {S : SysCfg V E SC Ctx} {ls : List (SLabel V)} {c0 : Ctx} {s' : Sys V E SC Ctx}
    (h : sys_run S ls (Sys.new c0) = some s') : s'.old = 0 := sys_run_old h

/-- Over a link on which failed sends leave nothing, what is received is a whole frame. -/
theorem clean_wholeR {a : App V E SC Ctx} {S : SysCfg V E SC Ctx} {s : Sys V E SC Ctx} (hclean : Clean S) (inv : SysInvR a S s)
    {o : Out V} (ho : o ∈ s.outs) {f : RpcFrame} (h : CarriesPart S.enc o f) : o.cut = none := by
  rcases inv.cuts o (.inr ho) with hc | ⟨l, hc⟩
  · exact hc
  · obtain ⟨b, _, h2⟩ := h
    simp only [hc] at h2
    rw [hclean l o.frame, List.take_zero] at h2
    have := (isFrame_iff ..).mp h2
    rw [show VarHeader.take_from_slice [] = .ok none from rfl] at this
    cases this

theorem clean_whole {a : App V E SC Ctx} {S : SysCfg V E SC Ctx} {s : Sys V E SC Ctx} (hclean : Clean S) (inv : SysInv a S s)
    {o : Out V} (ho : o ∈ s.outs) {f : RpcFrame} (h : CarriesPart S.enc o f) : o.cut = none :=
  clean_wholeR hclean inv.toSysInvR ho h

/-! ### Consequences for one completed call -/

theorem nodup_names {hs : List (EpHandler V Ctx)} (hn : (hs.map (·.name)).Nodup) {h h' : EpHandler V Ctx} (h1 : h ∈ hs)
    (h2 : h' ∈ hs) (e : h.name = h'.name) : h = h' := by
  induction hs with
  | nil => cases h1
  | cons x hs ih =>
    rw [List.map_cons, List.nodup_cons] at hn
    have off : ∀ y ∈ hs, y.name ≠ x.name := fun y hy e => hn.1 (List.mem_map.mpr ⟨y, hy, e⟩)
    rcases List.mem_cons.mp h1 with e1 | h1
    · rcases List.mem_cons.mp h2 with e2 | h2
      · rw [e1, e2]
      · exact absurd (e.symm.trans (by rw [e1])) (off h' h2)
    · rcases List.mem_cons.mp h2 with e2 | h2
      · exact absurd (e.trans (by rw [e2])) (off h h1)
      · exact ih hn.2 h1 h2

/-- The frames of an application: replies, publications of declared topics, errors, and replies to an earlier client. -/
inductive OutKind (a : App V E SC Ctx) (S : SysCfg V E SC Ctx) (s : Sys V E SC Ctx) (o : Out V) : Prop where
  | err (j : Nat) (hdr : VarHeader) (body : Bytes) (e : WireError) : o.src = .req j → Taken s j hdr body → (e = .KeyTooSmall ↔ ¬ LongEnough S.disp hdr) →
      IsMsg S.kkind a.std.error hdr.seq_no (.err e) o.frame → OutKind a S s o
  | out (t : TpRow) (seq : VarSeq) (b : Body V) : t ∈ a.topic_out_list.topics → IsMsg S.kkind t.key seq b o.frame → OutKind a S s o
  | reply (j : Nat) (hdr : VarHeader) (body : Bytes) (b : Body V) (req resp : Key) : Taken s j hdr body →
      req ∈ a.endpoint_list.endpoints.map (·.req) → resp ∈ a.endpoint_list.endpoints.map (·.resp) →
      LongEnough S.disp hdr → rxShort S.disp hdr = short (keyLen S.disp.n) req → IsMsg S.kkind resp hdr.seq_no b o.frame → ReplyTo S.disp s j hdr body req resp o →
      OutKind a S s o
  | old (i j : Nat) (t : Task V SC) (h : EpHandler V Ctx) (v : V) : o.src = .task i → i < s.old → s.tasks[i]? = some (j, t) →
      t.role = .endpoint → h ∈ S.disp.eps → h.name = t.name → h.resp ∈ a.endpoint_list.endpoints.map (·.resp) →
      IsMsg S.kkind h.resp t.hdr.seq_no (.val v) o.frame → OutKind a S s o

theorem out_kind {a : App V E SC Ctx} {S : SysCfg V E SC Ctx} {s : Sys V E SC Ctx} (hD : Routes a S.disp)
    (hdecl : Declared a S.kkind) (inv : SysInvR a S s) {o : Out V} (ho : OutOk a S s o) : OutKind a S s o := by
  obtain ⟨hh, _, hstd, heps, htps⟩ := hD
  have declared : ∀ h ∈ S.disp.eps, h.req ∈ a.endpoint_list.endpoints.map (·.req) ∧ h.resp ∈ a.endpoint_list.endpoints.map (·.resp) := by
    intro h hm
    rw [heps] at hm
    exact hh (h.req, h.resp) (List.mem_map.mpr ⟨h, hm, rfl⟩)
  obtain ⟨src, fr, cut⟩ := o
  unfold OutOk at ho
  cases src with
  | req j =>
    obtain ⟨hdr, body, ctx, h1, h2, h3⟩ := ho
    cases h3 with
    | err e hs he => rw [hstd] at he; exact .err j hdr body e rfl h1 hs he
    | ran h g v hm hf hfl hdec hmsg =>
      exact .reply j hdr body _ h.req h.resp h1 (declared h hm).1 (declared h hm).2 hf.long hf.here hmsg
        (.called h g v ctx fr cut hf rfl rfl hfl hdec h2 hmsg.body)
    | ping v hl hk hdec hmsg =>
      obtain ⟨r, hr, e1, e2⟩ := hdecl.ping
      exact .reply j hdr body _ _ _ h1 (List.mem_map.mpr ⟨r, hr, by rw [hstd]; exact e1⟩)
        (List.mem_map.mpr ⟨r, hr, by rw [hstd]; exact e2⟩) hl hk hmsg (.ping v fr cut hl hk rfl rfl hdec hmsg.body)
    | totals t hl hk hmsg =>
      obtain ⟨r, hr, e1, e2⟩ := hdecl.schemas
      exact .reply j hdr body _ _ _ h1 (List.mem_map.mpr ⟨r, hr, by rw [hstd]; exact e1⟩)
        (List.mem_map.mpr ⟨r, hr, by rw [hstd]; exact e2⟩) hl hk hmsg (.schemas t fr cut hl hk rfl rfl hmsg.body)
    | schema d seq _ _ hmsg =>
      obtain ⟨t, ht, e⟩ := hdecl.schema_topic
      rw [hstd, ← e] at hmsg
      exact .out t _ _ ht hmsg
    | topic t g v c hm hfl hmay =>
      rw [htps] at hm
      obtain ⟨r, hr, seq, b, hmsg⟩ := hdecl.sends t hm g hfl c hdr v fr hmay
      exact .out r _ _ hr hmsg
  | task i =>
    obtain ⟨j, t, h, w, h1, hrole, hfind, hmsg⟩ := ho
    rcases Nat.lt_or_ge i s.old with hold | hold
    · have hm := List.mem_of_find?_eq_some hfind
      exact .old i j t h w rfl hold h1 hrole hm (by simpa using List.find?_some hfind) (declared h hm).2 hmsg
    obtain ⟨hdr, body, h2, h3⟩ := inv.tasks i j t h1 hold
    obtain ⟨h', hm', hf, hname, hfl, hdec⟩ := h3.row hrole
    have hm := List.mem_of_find?_eq_some hfind
    have hn : h.name = t.name := by simpa using List.find?_some hfind
    have e : h = h' := nodup_names (by rw [heps]; exact hdecl.names) hm hm' (hn.trans hname.symm)
    subst e
    obtain ⟨role, name, sc, hdr', arg⟩ := t
    have es := h3.same
    simp only at es hname hdec hrole hmsg
    subst es hname hrole
    exact .reply j hdr' body _ h.req h.resp h2 (declared h hm).1 (declared h hm).2 hf.long hf.here hmsg
      (.spawned h arg w i sc fr cut hf rfl rfl hfl hdec hold h1 hmsg.body)
  | app =>
    obtain ⟨r, hr, seq, v, hmsg⟩ := ho
    exact .out r _ _ hr hmsg

theorem isMsg_kind {n : VarKeyKind} {key : Key} {seq : VarSeq} {b : Body V} {fr : Frame V} (h : IsMsg n key seq b fr) :
    fr.hdr.key.kind = n := by
  apply keyLen_inj
  rw [kind_len, h.key, ← Props.shrink_bytes8, ← kind_len, kind_of_shrink8]

theorem outKind_kind {a : App V E SC Ctx} {S : SysCfg V E SC Ctx} {s : Sys V E SC Ctx} {o : Out V} (h : OutKind a S s o) :
    o.frame.hdr.key.kind = S.kkind := by
  cases h with
  | err _ _ _ _ _ _ _ h => exact isMsg_kind h
  | out _ _ _ _ h => exact isMsg_kind h
  | reply _ _ _ _ _ _ _ _ _ _ _ h _ => exact isMsg_kind h
  | old _ _ _ _ _ _ _ _ _ _ _ _ h => exact isMsg_kind h

/-- Every frame the client has taken off the link was put there. -/
theorem sys_consist {a : App V E SC Ctx} {S : SysCfg V E SC Ctx} {s : Sys V E SC Ctx} (hD : Routes a S.disp)
    (hdecl : Declared a S.kkind) (inv : SysInvR a S s) : Consist S.kkind s.client := by
  intro c cl err f i h1 h2
  obtain ⟨h3, _⟩ := (reachable_coreInv inv.reach).doneOk c cl err f i h1 h2
  have h3 : s.client.seen[i]? = some f := h3
  obtain ⟨o, ho, hc⟩ := inv.held.2 f (List.mem_iff_getElem?.mpr ⟨i, h3⟩)
  rw [hc.header]
  exact outKind_kind (out_kind hD hdecl inv (inv.outs o ho))

/-- The frame a call ended with: where it comes from and what its key is. -/
theorem completed {a : App V E SC Ctx} {S : SysCfg V E SC Ctx} {s : Sys V E SC Ctx} (hD : Routes a S.disp)
    (hdecl : Declared a S.kkind) (inv : SysInvR a S s) {c : Nat} {cl : Call} {err : Bool} {f : RpcFrame} {i : Nat}
    (h1 : s.client.calls[c]? = some cl) (h2 : result cl = some (err, f, i)) :
    ∃ o ∈ s.outs, CarriesPart S.enc o f ∧ OutKind a S s o ∧
      keyBytes o.frame.hdr.key = short (keyLen S.kkind) (wantKey S.cfg cl err) ∧
      seqVal o.frame.hdr.seq_no = seqVal cl.rqst.header.seq_no := by
  rw [result_eq] at h2
  obtain ⟨h3, _⟩ := (reachable_coreInv inv.reach).doneOk c cl err f i h1 h2
  have h3 : s.client.seen[i]? = some f := h3
  obtain ⟨o, ho, hc⟩ := inv.held.2 f (List.mem_iff_getElem?.mpr ⟨i, h3⟩)
  have hk := out_kind hD hdecl inv (inv.outs o ho)
  obtain ⟨k, hkk, ha⟩ := reachable_answered inv.reach (sys_consist hD hdecl inv) h1 h2
  refine ⟨o, ho, hc, hk, ?_, by rw [← hc.header]; exact ha.seq⟩
  have hl : (keyBytes f.header.key).length = keyLen S.kkind := by rw [hc.header, ← kind_len, outKind_kind hk]
  have hle : keyLen S.kkind ≤ keyLen k := by
    rcases hkk with rfl | rfl
    · exact keyLen_le _
    · exact Nat.le_refl _
  have key := ha.key
  rw [KeyAgrees, hl, Nat.min_eq_right hle] at key
  rw [← hc.header, ← key]
  have := fold_self f.header.key
  rw [hl] at this
  exact this.symm

theorem shrink8_key (f : RpcFrame) (k : VarKeyKind) {q : Key} (h : f.header.key = .Key8 q) :
    keyBytes (f.shrink k).header.key = short (keyLen k) q := by
  show keyBytes (f.header.key.shrink_to k) = _
  rw [h, Props.shrink_bytes8]

theorem rxShort_of_long {D : Dispatcher V E SC Ctx} {hdr : VarHeader} {k : VarKeyKind} {q : Key} (hl : LongEnough D hdr)
    (h : keyBytes hdr.key = short (keyLen k) q) : rxShort D hdr = short (keyLen D.n) q := by
  have : keyLen D.n ≤ keyLen k := by
    have e : (short (keyLen k) q).length = keyLen k := by rw [← Props.shrink_bytes8, ← kind_len, kind_of_shrink8]
    rw [← e, ← h]
    exact hl
  exact (rxShort_of_sent this h).2

/-- What the server received as frame `j` is a request or a publication of the client. -/
theorem taken_from {a : App V E SC Ctx} {S : SysCfg V E SC Ctx} {s : Sys V E SC Ctx} (hD : Routes a S.disp)
    (hdecl : Declared a S.kkind) (inv : SysInvR a S s) {j : Nat} {hdr : VarHeader} {body : Bytes} (ht : Taken s j hdr body) :
    (∃ (c : Nat) (cl : Call) (r : EpRow) (k : VarKeyKind), s.client.calls[c]? = some cl ∧ r ∈ a.endpoint_list.endpoints ∧
      cl.rqst.header.key = .Key8 r.req ∧ cl.resp_key = r.resp ∧ hdr = (cl.rqst.shrink k).header ∧ body = cl.rqst.body ∧
      (LongEnough S.disp hdr → rxShort S.disp hdr = short (keyLen S.disp.n) r.req)) ∨
    ∃ (p : Nat) (pb : Pub), s.client.pubs[p]? = some pb ∧ ∃ t ∈ a.topic_in_list.topics,
      hdr.seq_no = pb.orig.header.seq_no ∧ body = pb.orig.body ∧ pb.orig.header.key = .Key8 t.key ∧
      (LongEnough S.disp hdr → rxShort S.disp hdr = short (keyLen S.disp.n) t.key) := by
  obtain ⟨b, h1, h2⟩ := ht
  obtain ⟨f, hf, hb⟩ := reachable_tx inv.reach h1
  have hfr : f.header = hdr ∧ f.body = body := by
    rw [RpcFrame.to_bytes, write_to_vec_eq] at hb
    cases hb
    rw [take_enc] at h2
    cases h2
    exact ⟨rfl, rfl⟩
  obtain ⟨e1, e2⟩ := hfr
  rcases reachable_enqOk inv.reach (sys_consist hD hdecl inv) f hf with ⟨c, cl, k, g1, g2, g3⟩ | ⟨p, pb, k, g1, g2, g3⟩
  · obtain ⟨r, hr, a1, a2⟩ := inv.calls c cl g1
    refine .inl ⟨c, cl, r, k, g1, hr, a1, a2, by rw [← e1, g3], by rw [← e2, g3]; rfl, fun hl => rxShort_of_long hl (by rw [← e1, g3]; exact shrink8_key _ _ a1)⟩
  · obtain ⟨t, ht, a1⟩ := inv.pubs p pb g1
    refine .inr ⟨p, pb, g1, t, ht, by rw [← e1, g3]; rfl, by rw [← e2, g3]; rfl, a1,
      fun hl => rxShort_of_long hl (by rw [← e1, g3]; exact shrink8_key _ _ a1)⟩


theorem taken_origin {a : App V E SC Ctx} {S : SysCfg V E SC Ctx} {s : Sys V E SC Ctx} (hD : Routes a S.disp)
    (hdecl : Declared a S.kkind) (inv : SysInvR a S s) {j : Nat} {hdr : VarHeader} {body : Bytes} (ht : Taken s j hdr body) :
    (∃ (c : Nat) (cl : Call) (r : EpRow) (k : VarKeyKind), s.client.calls[c]? = some cl ∧ r ∈ a.endpoint_list.endpoints ∧
      cl.rqst.header.key = .Key8 r.req ∧ cl.resp_key = r.resp ∧ hdr = (cl.rqst.shrink k).header ∧ body = cl.rqst.body ∧
      (LongEnough S.disp hdr → rxShort S.disp hdr = short (keyLen S.disp.n) r.req)) ∨
    ∃ (p : Nat) (pb : Pub), s.client.pubs[p]? = some pb ∧ ∃ t ∈ a.topic_in_list.topics,
      hdr.seq_no = pb.orig.header.seq_no ∧ (LongEnough S.disp hdr → rxShort S.disp hdr = short (keyLen S.disp.n) t.key) := by
  rcases taken_from hD hdecl inv ht with h | ⟨p, pb, h1, t, h2, h3, _, _, h4⟩
  · exact .inl h
  · exact .inr ⟨p, pb, h1, t, h2, h3, h4⟩

end PRpc
