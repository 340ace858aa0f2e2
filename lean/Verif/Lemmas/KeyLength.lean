import Verif.Lemmas.System
/-! Helper lemmas for C75: the key lengths of the frames of calls and publications begun after a call has returned. -/

namespace PRpc

open Spec

variable {V E SC Ctx : Type}

/-- Calls from number `N` on and publications from number `M` on use keys of kind `n`. -/
structure Late (n : VarKeyKind) (N M : Nat) (s : Client) : Prop where
  done : AnyDone s
  locals : ∀ (c : Nat) cl k, N ≤ c → s.calls[c]? = some cl → cl.phase.kind = some k → k = n
  pubs : ∀ (p : Nat) pb, s.pubs[p]? = some pb → ∃ k, pb.frame = pb.orig.shrink k ∧ (M ≤ p → k = n)
  enq : ∀ f ∈ s.enq,
    (∃ (c : Nat) (cl : Call) (k : VarKeyKind), s.calls[c]? = some cl ∧ f = cl.rqst.shrink k ∧ (N ≤ c → k = n)) ∨
    (∃ (p : Nat) (pb : Pub) (k : VarKeyKind), s.pubs[p]? = some pb ∧ f = pb.orig.shrink k ∧ (M ≤ p → k = n))

theorem reachable_pubFrame {cfg : Cfg} {s : Client} (hr : Reachable cfg s) {p : Nat} {pb : Pub} (h : s.pubs[p]? = some pb) :
    ∃ k, pb.frame = pb.orig.shrink k := by
  revert p pb
  refine reachable_induct (cfg := cfg) (fun s => ∀ {p : Nat} {pb : Pub}, s.pubs[p]? = some pb → ∃ k, pb.frame = pb.orig.shrink k) ?_ ?_ hr
  · intro p pb h; simp [Client.new] at h
  · intro s l s' ih hs p pb hp
    rcases step_pub hs hp with ⟨pb0, h1, h2, h3⟩ | ⟨f, _, h2, h3⟩
    · rw [h2, h3]; exact ih h1
    · exact ⟨s.kkind, by rw [h2, h3]⟩

theorem late_start {cfg : Cfg} {n : VarKeyKind} {s : Client} (hr : Reachable cfg s) (hc : Consist n s) (hd : AnyDone s) :
    Late n s.calls.length s.pubs.length s where
  done := hd
  locals := fun c cl k h1 h2 => by have := (List.getElem?_eq_some_iff.mp h2).1; omega
  pubs := fun p pb h => by
    obtain ⟨k, e⟩ := reachable_pubFrame hr h
    have := (List.getElem?_eq_some_iff.mp h).1
    exact ⟨k, e, fun h => by omega⟩
  enq := fun f hf => by
    rcases reachable_enqOk hr hc f hf with ⟨c, cl, k, g1, _, g3⟩ | ⟨p, pb, k, g1, _, g3⟩
    · have := (List.getElem?_eq_some_iff.mp g1).1
      exact .inl ⟨c, cl, k, g1, g3, fun h => by omega⟩
    · have := (List.getElem?_eq_some_iff.mp g1).1
      exact .inr ⟨p, pb, k, g1, g3, fun h => by omega⟩

theorem late_step {cfg : Cfg} {n : VarKeyKind} {N M : Nat} {s s' : Client} {l : Label} (hr : Reachable cfg s) (hc : Consist n s)
    (h : step cfg s l = some s') (inv : Late n N M s) : Late n N M s' := by
  have hkk : s.kkind = n := (reachable_kindInv hr hc).done inv.done
  have old : ∀ f ∈ s.enq,
      (∃ (c : Nat) (cl : Call) (k : VarKeyKind), s'.calls[c]? = some cl ∧ f = cl.rqst.shrink k ∧ (N ≤ c → k = n)) ∨
      (∃ (p : Nat) (pb : Pub) (k : VarKeyKind), s'.pubs[p]? = some pb ∧ f = pb.orig.shrink k ∧ (M ≤ p → k = n)) := by
    intro f hf
    rcases inv.enq f hf with ⟨c, cl, k, g1, g2, g3⟩ | ⟨p, pb, k, g1, g2, g3⟩
    · obtain ⟨cl', a1, a2⟩ := step_rqst h g1
      have : cl'.rqst = cl.rqst := congrArg (fun x => x.1) a2
      exact .inl ⟨c, cl', k, a1, by rw [this]; exact g2, g3⟩
    · obtain ⟨pb', a1, _, a3, _⟩ := step_pub_kept h g1
      exact .inr ⟨p, pb', k, a1, by rw [a3]; exact g2, g3⟩
  refine ⟨anyDone_step h inv.done, fun c cl k hN h1 h2 => ?_, fun p pb hp => ?_, fun f hf => ?_⟩
  · rcases step_phase h h1 h2 with ⟨cl0, g1, g2⟩ | e
    · exact inv.locals c cl0 k hN g1 g2
    · rw [e, hkk]
  · rcases step_pub h hp with ⟨pb0, h1, h2, h3⟩ | ⟨f, _, h2, h3⟩
    · rw [h2, h3]; exact inv.pubs p pb0 h1
    · exact ⟨n, by rw [h2, h3, hkk], fun _ => rfl⟩
  · rcases step_enq h with e | ⟨c, cl, k, _, a2, a3, a4, e⟩ | ⟨p, pb, _, a2, _, a4, e⟩
    · rw [e] at hf; exact old f hf
    · rw [e, List.mem_append, List.mem_singleton] at hf
      rcases hf with hf | rfl
      · exact old f hf
      · exact .inl ⟨c, _, k, a4, rfl, fun hN => inv.locals c cl k hN a2 (by rw [a3]; rfl)⟩
    · rw [e, List.mem_append, List.mem_singleton] at hf
      rcases hf with hf | rfl
      · exact old f hf
      · obtain ⟨k, b1, b2⟩ := inv.pubs p pb a2
        exact .inr ⟨p, _, k, a4, b1, b2⟩

theorem late_run {a : App V E SC Ctx} {S : SysCfg V E SC Ctx} {N M : Nat} {ls : List (SLabel V)} {s s' : Sys V E SC Ctx}
    (hD : Dispatches a S.disp) (hdecl : Declared a S.kkind) (hu : ∀ l ∈ ls, Used a l) (h : sys_run S ls s = some s')
    (inv : SysInv a S s) (hl : Late S.kkind N M s.client) : Late S.kkind N M s'.client := by
  induction ls generalizing s with
  | nil => cases h; exact hl
  | cons l ls ih =>
    simp only [sys_run] at h
    split at h
    · rename_i s1 hs
      refine ih (fun x hx => hu x (List.mem_cons_of_mem _ hx)) h (sys_step_inv hs (hu l (List.mem_cons_self ..)) inv) ?_
      rcases sys_step_client hs with e | ⟨l', _, e⟩
      · rw [e]; exact hl
      · exact late_step inv.reach (sys_consist hD hdecl inv) e hl
    · cases h

/-- The frame sent as byte string `j` was in the queue. -/
theorem taken_frame {a : App V E SC Ctx} {S : SysCfg V E SC Ctx} {s : Sys V E SC Ctx} (inv : SysInv a S s) {j : Nat}
    {hdr : VarHeader} {body : Bytes} (ht : Taken s j hdr body) : ∃ f ∈ s.client.enq, f.header = hdr ∧ f.body = body := by
  obtain ⟨b, h1, h2⟩ := ht
  obtain ⟨f, hf, hb⟩ := reachable_tx inv.reach h1
  rw [RpcFrame.to_bytes, write_to_vec_eq] at hb
  cases hb
  rw [take_enc] at h2
  cases h2
  exact ⟨f, hf, rfl, rfl⟩

theorem short_length (k : VarKeyKind) (q : Key) : (short (keyLen k) q).length = keyLen k := by
  rw [← Props.shrink_bytes8, ← kind_len, kind_of_shrink8]

end PRpc
