import Verif.Lemmas.Causes
import Verif.Props.Client
/-!
Property theorems C71: refusals have a cause.
-/

namespace PRpc.Props

open PRpc PRpc.Spec

/-- C71: a client is closed only after an explicit close, a transport failure, or after its last handle was dropped: no
received bytes, no call, publication or subscription, and no timeout closes it. -/
theorem c71_closed_for_a_reason {cfg : Cfg} {ls : List Label} {s : Client} (h : run cfg ls Client.new = some s)
    (hs : s.stopped = true) : CloseCause ls := by
  have key : ∀ (ls : List Label) (s : Client), run cfg ls Client.new = some s →
      (s.stopped = true → CloseCause ls) ∧ (s.handles = false → .drop_handles ∈ ls) := by
    intro ls
    induction ls using snoc_induct with
    | nil => intro s h; cases h; exact ⟨fun h => (by cases h), fun h => (by cases h)⟩
    | snoc ls l ih =>
      intro s h
      rw [run_append] at h
      cases e : run cfg ls Client.new with
      | none => rw [e] at h; cases h
      | some t =>
        rw [e, Option.bind_some] at h
        simp only [run] at h
        cases e2 : step cfg t l with
        | none => rw [e2] at h; cases h
        | some t' =>
          rw [e2] at h; cases h
          obtain ⟨i1, i2⟩ := ih t e
          refine ⟨fun hs => ?_, fun hh => ?_⟩
          · cases ht : t.stopped with
            | true =>
              rcases i1 ht with h | h | h | h
              · exact .inl (List.mem_append_left _ h)
              · exact .inr (.inl (List.mem_append_left _ h))
              · exact .inr (.inr (.inl (List.mem_append_left _ h)))
              · exact .inr (.inr (.inr (List.mem_append_left _ h)))
            | false =>
              rcases step_stops e2 ht hs with rfl | rfl | rfl | h
              · exact .inl (List.mem_append_right _ (by simp))
              · exact .inr (.inl (List.mem_append_right _ (by simp)))
              · exact .inr (.inr (.inl (List.mem_append_right _ (by simp))))
              · exact .inr (.inr (.inr (List.mem_append_left _ (i2 h))))
          · cases ht : t.handles with
            | false => exact List.mem_append_left _ (i2 ht)
            | true =>
              by_cases hl : l = .drop_handles
              · subst hl; exact List.mem_append_right _ (by simp)
              · rw [step_handles e2 ht hl] at hh; cases hh
  exact (key ls s h).1 hs

/-- A receive error closes; without one the same client stays open. -/
example : (run exCfg [.in_poll, .in_recv none] Client.new).map Client.stopped = some true ∧
    (run exCfg [.in_poll, .in_recv (some [0xFF]), .in_recv (some [])] Client.new).map Client.stopped = some false := by
  decide +kernel

/-- C71: bytes that are no frame change nothing at all. -/
theorem c71_bad_bytes_ignored {cfg : Cfg} {s s' : Client} {b : Bytes} (h : step cfg s (.in_recv (some b)) = some s')
    (hb : ¬ WellFormed b) : s' = s := by
  have hb' := fun g => hb ((c03_header_decode_accepts_iff b).mp g)
  simp only [step, in_recv] at h
  split at h
  · split at h
    · cases h
    · cases h; rfl
    · rename_i hdr body e
      exact absurd ⟨hdr, body, e⟩ hb'
  · cases h

/-- They are indeed read and skipped. -/
example : ¬ WellFormed [0xFF#8] ∧ (run exCfg [.in_poll, .in_recv (some [0xFF#8])] Client.new).isSome = true := by
  refine ⟨?_, by decide +kernel⟩
  rw [← c03_header_decode_accepts_iff, show VarHeader.take_from_slice [0xFF#8] = .ok none by decide]
  rintro ⟨h, r, e⟩
  cases e

/-- C71: a call ends with `Closed`, and a publication fails, only if the client is closed. -/
theorem c71_closed_results {cfg : Cfg} {s : Client} (hr : Reachable cfg s) :
    (∀ (c : Nat) (cl : Call), s.calls[c]? = some cl → cl.phase = .done .Closed → s.stopped = true) ∧
    (∀ (p : Nat) (pb : Pub), s.pubs[p]? = some pb → pb.res = some false → s.stopped = true) :=
  ⟨(reachable_closedInv hr).call, (reachable_closedInv hr).pub⟩

example : ∃ s cl, Reachable exCfg s ∧ s.calls[0]? = some cl ∧ cl.phase = .done .Closed := by
  have h0 : (run exCfg (startCall 0 1 2 [7] ++ [.close, .call_closed 0]) Client.new).map
      (fun s => s.calls[0]?.map Call.phase) = some (some (.done .Closed)) := by decide +kernel
  obtain ⟨s, e1, e2⟩ := Option.map_eq_some_iff.mp h0
  obtain ⟨cl, e3, e4⟩ := Option.map_eq_some_iff.mp e2
  exact ⟨s, cl, ⟨_, e1⟩, e3, e4⟩

/-- Two waiters with equal headers wait for the same thing. -/
theorem sameWait_of_eq {cfg : Cfg} {a b : Call} {ka kb : VarKeyKind} {ea eb : Bool}
    (h : (waitHdr cfg a ka ea).eq (waitHdr cfg b kb eb) = true) : SameWait cfg a ea (keyLen ka) b eb (keyLen kb) := by
  obtain ⟨h1, h2⟩ := (waitHdr_answers cfg a ka ea _).mp h
  have hk : (waitHdr cfg b kb eb).key = (VarKey.Key8 (wantKey cfg b eb)).shrink_to kb := by cases eb <;> rfl
  have hs : (waitHdr cfg b kb eb).seq_no = b.rqst.header.seq_no := by cases eb <;> rfl
  refine ⟨by rw [hs] at h2; exact h2.symm, ?_⟩
  rw [hk, KeyAgrees] at h1
  have hl : (keyBytes ((VarKey.Key8 (wantKey cfg b eb)).shrink_to kb)).length = keyLen kb := by
    rw [← kind_len, kind_of_shrink8]
  rw [hl] at h1
  rw [← h1]
  have hm : min (keyLen ka) (keyLen kb) = keyLen (minKind ka kb) := (keyLen_minKind ka kb).symm
  have hb := shrink_bytes ((VarKey.Key8 (wantKey cfg b eb)).shrink_to kb) (minKind ka kb)
  rw [hl, show min (keyLen kb) (keyLen (minKind ka kb)) = keyLen (minKind ka kb) by rw [← hm]; omega] at hb
  rw [hm, ← hb, shrink_shrink, short_shrink]
  congr 2
  apply keyLen_inj
  rw [keyLen_minKind, ← hm]
  omega

/-- C71: a call ends with `BadResponse` only while another call waits for answers that cannot be told from its own, or
when its own response key cannot be told from the error key. -/
theorem c71_bad_response_cause {cfg : Cfg} {s s' : Client} {l : Label} (hr : Reachable cfg s) (h : step cfg s l = some s')
    {c : Nat} {cl : Call} (hc : s'.calls[c]? = some cl) (hp : cl.phase = .done .BadResponse)
    (hn : ∀ cl0, s.calls[c]? = some cl0 → cl0.phase ≠ .done .BadResponse) :
    ∃ (cl0 : Call) (n : Nat) (ea : Bool) (d : Nat) (other : Call) (m : Nat) (eb : Bool),
      s.calls[c]? = some cl0 ∧ readLen cl0 = some n ∧ s.calls[d]? = some other ∧ waitsThrough other = some m ∧
      SameWait cfg other eb m cl0 ea n ∧ (d = c → ea = true ∧ eb = false) := by
  have inv := reachable_coreInv hr
  rcases step_refused h (.inr rfl) hc hp with ⟨cl0, h1, h2⟩ | ⟨h1, _⟩ | ⟨_, cl0, k, h1, h2⟩
  · exact absurd h2 (hn cl0 h1)
  · cases h1
  · have wt : ∀ (x : Call) (e : Bool) (k' : VarKeyKind), x.phase.hasWait e = some k' → waitsThrough x = some (keyLen k') := by
      intro x e k' hx
      simp only [waitsThrough]
      cases hph : x.phase <;> rw [hph] at hx <;> cases e <;> simp_all [Phase.hasWait]
    rcases h2 with ⟨h2, ⟨⟨id, hd⟩, hx, he⟩⟩ | ⟨h2, ⟨⟨id, hd⟩, hx, he⟩⟩
    · obtain ⟨other, k', g1, g2, rfl, _⟩ := inv.mapOk id hd hx
      refine ⟨cl0, keyLen k, false, id.call, other, keyLen k', id.err, h1, by simp [readLen, h2], g1, wt _ _ _ g2,
        sameWait_of_eq (eb := false) he, fun e => ?_⟩
      rw [e] at g1
      cases h1.symm.trans g1
      rw [h2] at g2; cases g2
    · obtain ⟨other, k', g1, g2, rfl, _⟩ := inv.mapOk id hd hx
      refine ⟨cl0, keyLen k, true, id.call, other, keyLen k', id.err, h1, by simp [readLen, waitsThrough, h2], g1, wt _ _ _ g2,
        sameWait_of_eq (eb := true) he, fun e => ⟨rfl, ?_⟩⟩
      rw [e] at g1
      cases h1.symm.trans g1
      rw [h2] at g2
      cases hb : id.err with
      | false => rfl
      | true => rw [hb] at g2; cases g2

/-- Two raw calls with the same number and response key: the second is refused. -/
example : ∃ s s' cl, Reachable exCfg s ∧ step exCfg s (.call_reg_ok 1) = some s' ∧ s'.calls[1]? = some cl ∧
    cl.phase = .done .BadResponse ∧ ∀ cl0, s.calls[1]? = some cl0 → cl0.phase ≠ .done .BadResponse := by
  have h0 : (run exCfg [.call_begin_raw ⟨⟨.Key8 (cKey 1), .Seq1 5⟩, []⟩ (cKey 2), .call_kind 0, .call_reg_ok 0,
      .call_begin_raw ⟨⟨.Key8 (cKey 1), .Seq2 5⟩, []⟩ (cKey 2), .call_kind 1] Client.new).map
      (fun s => (s.calls[1]?.map Call.phase, (step exCfg s (.call_reg_ok 1)).map fun s' => s'.calls[1]?.map Call.phase)) =
      some (some (.kinded .Key8), some (some (.done .BadResponse))) := by decide +kernel
  obtain ⟨s, e1, e2⟩ := Option.map_eq_some_iff.mp h0
  simp only [Prod.mk.injEq] at e2
  obtain ⟨s', e3, e4⟩ := Option.map_eq_some_iff.mp e2.2
  obtain ⟨cl, e5, e6⟩ := Option.map_eq_some_iff.mp e4
  refine ⟨s, s', cl, ⟨_, e1⟩, e3, e5, e6, fun cl0 g => ?_⟩
  have := e2.1
  rw [g] at this
  simp only [Option.map_some, Option.some.injEq] at this
  rw [this]; exact fun e => by cases e

theorem typedBetween_le (cs : List Call) (i j : Nat) : typedBetween cs i j ≤ cs.length := by
  rw [typedBetween]
  refine Nat.le_trans List.countP_le_length ?_
  rw [List.length_take, List.length_drop]
  omega

/-- C71: with calls made through `send_resp` only, fewer than `2^32` of them, no call ends with `BadResponse` unless its
own response key cannot be told from the error key at some key length. -/
theorem c71_typed_calls_not_refused {cfg : Cfg} {s : Client} (hr : Reachable cfg s) (ht : ∀ cl ∈ s.calls, cl.typed = true)
    (hl : s.calls.length < 2 ^ 32) {c : Nat} {cl : Call} (hc : s.calls[c]? = some cl) (hp : cl.phase = .done .BadResponse) :
    ∃ k : VarKeyKind, short (keyLen k) cl.resp_key = short (keyLen k) cfg.err_key := by
  obtain ⟨ls, h⟩ := hr
  induction ls using snoc_induct generalizing s c cl with
  | nil => cases h; simp [Client.new] at hc
  | snoc ls l ih =>
    rw [run_append] at h
    cases e : run cfg ls Client.new with
    | none => rw [e] at h; cases h
    | some t =>
      rw [e, Option.bind_some] at h
      simp only [run] at h
      cases e2 : step cfg t l with
      | none => rw [e2] at h; cases h
      | some t' =>
        rw [e2] at h; cases h
        have pre : t.calls.map Call.sig <+: s.calls.map Call.sig := by
          rcases coreStep_sig (step_core e2) with e3 | ⟨x, e3, _⟩
          · have e3 : s.calls.map Call.sig = t.calls.map Call.sig := e3
            rw [e3]; exact List.prefix_rfl
          · have e3 : s.calls = t.calls ++ [x] := e3
            rw [e3, List.map_append]; exact List.prefix_append _ _
        have htl : t.calls.length ≤ s.calls.length := by simpa using pre.length_le
        have sigs : ∀ {i : Nat} {a : Call}, t.calls[i]? = some a → ∃ b, s.calls[i]? = some b ∧ b.sig = a.sig := by
          intro i a ha
          have h1 : (t.calls.map Call.sig)[i]? = some a.sig := by rw [List.getElem?_map, ha]; rfl
          obtain ⟨r, hr'⟩ := pre
          have h2 : (s.calls.map Call.sig)[i]? = some a.sig := by
            rw [← hr', List.getElem?_append_left (by
              rcases Nat.lt_or_ge i (t.calls.map Call.sig).length with g | g
              · exact g
              · rw [List.getElem?_eq_none g] at h1; cases h1)]
            exact h1
          rw [List.getElem?_map] at h2
          exact Option.map_eq_some_iff.mp h2
        have htt : ∀ cl ∈ t.calls, cl.typed = true := by
          intro a ha
          obtain ⟨i, hi⟩ := List.mem_iff_getElem?.mp ha
          obtain ⟨b, hb, hs⟩ := sigs hi
          have := ht b (List.mem_of_getElem? hb)
          simp only [Call.sig, Prod.mk.injEq] at hs
          rw [← hs.2.2]; exact this
        by_cases hn : ∃ cl0, t.calls[c]? = some cl0 ∧ cl0.phase = .done .BadResponse
        · obtain ⟨cl0, g1, g2⟩ := hn
          obtain ⟨k, hk⟩ := ih htt (by omega) g1 g2 e
          obtain ⟨b, hb, hs⟩ := sigs g1
          cases hb.symm.trans hc
          simp only [Call.sig, Prod.mk.injEq] at hs
          exact ⟨k, by rw [hs.2.1]; exact hk⟩
        · have rt : Reachable cfg t := ⟨ls, e⟩
          obtain ⟨cl0, n, ea, d, other, m, eb, g1, g2, g3, g4, g5, g6⟩ := c71_bad_response_cause rt e2 hc hp
            (fun cl0 h1 h2 => hn ⟨cl0, h1, h2⟩)
          have hd : d = c := by
            rcases Nat.lt_trichotomy d c with hlt | heq | hlt
            · exact absurd g5.seq (c35_sequence_numbers_unique rt hlt g3 g1 (htt _ (List.mem_of_getElem? g3))
                (htt _ (List.mem_of_getElem? g1)) (Nat.lt_of_le_of_lt (typedBetween_le _ _ _) (by omega)))
            · exact heq
            · exact absurd g5.seq.symm (c35_sequence_numbers_unique rt hlt g1 g3 (htt _ (List.mem_of_getElem? g1))
                (htt _ (List.mem_of_getElem? g3)) (Nat.lt_of_le_of_lt (typedBetween_le _ _ _) (by omega)))
          obtain ⟨rfl, rfl⟩ := g6 hd
          subst hd
          cases g1.symm.trans g3
          obtain ⟨b, hb, hs⟩ := sigs g1
          cases hb.symm.trans hc
          simp only [Call.sig, Prod.mk.injEq] at hs
          have hm : ∃ k, m = keyLen k := by
            simp only [waitsThrough] at g4
            split at g4 <;> first | (cases g4; done) | exact ⟨_, (Option.some.inj g4).symm⟩
          have hnk : ∃ k, n = keyLen k := by
            simp only [readLen, waitsThrough] at g2
            repeat' split at g2
            all_goals first | (cases g2; done) | exact ⟨_, (Option.some.inj g2).symm⟩
          obtain ⟨km, rfl⟩ := hm
          obtain ⟨kn, rfl⟩ := hnk
          refine ⟨minKind km kn, ?_⟩
          rw [keyLen_minKind, hs.2.1]
          exact g5.key

/-- The two calls of `exRun` are typed, and their response keys differ from the error key at every length. -/
example : (run exCfg exRun Client.new).map (fun s => s.calls.all fun cl => cl.typed &&
    [VarKeyKind.Key1, .Key2, .Key4, .Key8].all fun k => decide (short (keyLen k) cl.resp_key ≠ short (keyLen k) exCfg.err_key)) =
    some true := by decide +kernel

end PRpc.Props
