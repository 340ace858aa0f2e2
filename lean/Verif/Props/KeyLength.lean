import Verif.Lemmas.KeyLength
import Verif.Lemmas.Session
import Verif.Props.Live
/-! The key length given to `Server::new`: C75. -/

namespace PRpc.Props

open Spec

variable {V E SC Ctx : Type}

/-- C75: with a key length that is at least the dispatcher's the frames the server sends are told apart by their keys. -/
theorem c75_long_keys_apart (a : App V E SC Ctx) (S : SysCfg V E SC Ctx) (hD : define_dispatch a = .ok S.disp)
    (hlong : keyLen S.disp.n ≤ keyLen S.kkind) : KeysApart a S := by
  obtain ⟨hsz, _⟩ := define_dispatch_ok hD
  obtain ⟨_, _, dout, _, _⟩ := c10_dispatcher_key_length _ _ hsz
  refine apart_of_distinct (distinct_mono ?_ ?_ hlong dout)
  · cases S.disp.n <;> simp [KeySize, keyLen]
  · cases S.kkind <;> simp [KeySize, keyLen]

/-- C75: with such a length every message the client of any session has sent, whatever key lengths it has adapted to, has a key that is long
enough for the dispatcher. -/
theorem c75_long_keys_accepted (a : App V E SC Ctx) (S : SysCfg V E SC Ctx) (hD : define_dispatch a = .ok S.disp)
    (hdecl : Declared a S.kkind) (hlong : keyLen S.disp.n ≤ keyLen S.kkind)
    {es : List (Sys V E SC Ctx)} {s0 : Sys V E SC Ctx} (h0 : Sessions a S es s0)
    {ls : List (SLabel V)} {s : Sys V E SC Ctx} (hu : ∀ l ∈ ls, Used a l) (hrun : sys_run S ls s0 = some s)
    {b : Bytes} (hb : b ∈ s.client.tx) : ∃ hdr body, IsFrame b hdr body ∧ LongEnough S.disp hdr := by
  have inv := sys_run_inv hrun hu (sessions_start h0).inv
  obtain ⟨j, hj⟩ := List.mem_iff_getElem?.mp hb
  obtain ⟨f, hf, he⟩ := reachable_tx inv.reach hj
  rw [RpcFrame.to_bytes, write_to_vec_eq] at he
  cases he
  refine ⟨f.header, f.body, (isFrame_iff ..).mpr (take_enc ..), ?_⟩
  have le : ∀ k, (k = VarKeyKind.Key8 ∨ k = S.kkind) → keyLen S.disp.n ≤ keyLen k := by
    rintro k (rfl | rfl)
    · exact keyLen_le _
    · exact hlong
  rcases reachable_enqOk inv.reach (sys_consist hD hdecl inv) f hf with ⟨c, cl, k, g1, g2, g3⟩ | ⟨p, pb, k, g1, g2, g3⟩
  · obtain ⟨r, _, e, _⟩ := inv.calls c cl g1
    rw [LongEnough, g3, shrink8_key _ _ e, short_length]
    exact le k g2
  · obtain ⟨t, _, e⟩ := inv.pubs p pb g1
    rw [LongEnough, g3, shrink8_key _ _ e, short_length]
    exact le k g2

/-- C75: with such a length no call is refused for a short key. -/
theorem c75_long_never_refused (a : App V E SC Ctx) (S : SysCfg V E SC Ctx) (hD : define_dispatch a = .ok S.disp)
    (hdecl : Declared a S.kkind) (hlong : keyLen S.disp.n ≤ keyLen S.kkind) (hcfg : S.cfg.err_key = a.std.error)
    (hdist : ∀ r ∈ a.endpoint_list.endpoints, short (keyLen S.kkind) r.resp ≠ short (keyLen S.kkind) a.std.error)
    (hdist' : ∀ t ∈ a.topic_out_list.topics, short (keyLen S.kkind) t.key ≠ short (keyLen S.kkind) a.std.error)
    {es : List (Sys V E SC Ctx)} {s0 : Sys V E SC Ctx} (h0 : Sessions a S es s0)
    {ls : List (SLabel V)} {s : Sys V E SC Ctx} (hu : ∀ l ∈ ls, Used a l) (hrun : sys_run S ls s0 = some s)
    {c : Nat} {cl : Call} {f : RpcFrame} {i : Nat} (hc : s.client.calls[c]? = some cl) (hres : result cl = some (true, f, i)) :
    ∃ o ∈ s.outs, CarriesPart S.enc o f ∧ ∃ e, o.frame.body = .err e ∧ e ≠ .KeyTooSmall := by
  have inv := sys_run_inv hrun hu (sessions_start h0).inv
  obtain ⟨o, ho, hcar, hkind, hkey, hseq⟩ := completed hD hdecl inv hc hres
  have hkey : keyBytes o.frame.hdr.key = short (keyLen S.kkind) a.std.error := by rw [hkey, wantKey, ← hcfg]; rfl
  refine ⟨o, ho, hcar, ?_⟩
  cases hkind with
  | out t seq b ht hm => exact absurd (hm.key.symm.trans hkey) (hdist' t ht)
  | reply j hdr body b req resp ht hq hp hl hrx hm hrep =>
    obtain ⟨r, hr, e⟩ := List.mem_map.mp hp
    rw [← e] at hm
    exact absurd (hm.key.symm.trans hkey) (hdist r hr)
  | old _ _ _ h _ _ _ _ _ _ _ hp hm =>
    obtain ⟨r, hr, e⟩ := List.mem_map.mp hp
    rw [← e] at hm
    exact absurd (hm.key.symm.trans hkey) (hdist r hr)
  | err j hdr body e hsrc ht hs hm =>
    refine ⟨e, hm.body, fun he => hs.mp he ?_⟩
    obtain ⟨b, t1, t2⟩ := ht
    obtain ⟨hdr', body', h1, h2⟩ := c75_long_keys_accepted a S hD hdecl hlong h0 hu hrun (List.mem_iff_getElem?.mpr ⟨j, t1⟩)
    obtain ⟨rfl, _⟩ := isFrame_unique h1 ((isFrame_iff ..).mpr t2)
    exact h2

/-- C75, the other way: with a key length below the dispatcher's, once a call has returned anything no call begun later returns
a reply: what it returns is an error the server sent for a message with its sequence number, and if this message is its own
request the error is `KeyTooSmall`.  (In sessions after others: if no handlers are spawned, as their tasks may reply to a new client, C77.) -/
theorem c75_short_locks_out (a : App V E SC Ctx) (S : SysCfg V E SC Ctx) (hD : define_dispatch a = .ok S.disp)
    (hdecl : Declared a S.kkind) (hshort : keyLen S.kkind < keyLen S.disp.n) (hapart : KeysApart a S)
    (hcfg : S.cfg.err_key = a.std.error)
    (hdist : ∀ r ∈ a.endpoint_list.endpoints, short (keyLen S.kkind) r.resp ≠ short (keyLen S.kkind) a.std.error)
    (hdist' : ∀ t ∈ a.topic_out_list.topics, short (keyLen S.kkind) t.key ≠ short (keyLen S.kkind) a.std.error)
    {es : List (Sys V E SC Ctx)} {s0 : Sys V E SC Ctx} (h0 : Sessions a S es s0) (hnone : es = [] ∨ ∀ h ∈ a.eps, h.flavor ≠ .spawn)
    {ls more : List (SLabel V)} {s t : Sys V E SC Ctx} (hu : ∀ l ∈ ls, Used a l) (hrun : sys_run S ls s0 = some s)
    (hu2 : ∀ l ∈ more, Used a l) (hrun2 : sys_run S more s = some t) (hlen : t.client.calls.length < 2 ^ 32)
    (hdone : ∃ (d : Nat) (cd : Call) (x : Bool × RpcFrame × Nat), s.client.calls[d]? = some cd ∧ result cd = some x)
    {c : Nat} {cl : Call} {err : Bool} {f : RpcFrame} {i : Nat} (hlate : s.client.calls.length ≤ c)
    (hc : t.client.calls[c]? = some cl) (hres : result cl = some (err, f, i)) :
    err = true ∧ ∃ o ∈ t.outs, ∃ j hdr e, CarriesPart S.enc o f ∧ o.src = .req j ∧ o.frame.body = .err e ∧
      ((RequestOf t c cl j hdr ∧ e = .KeyTooSmall) ∨
        ∃ (p : Nat) (pb : Pub) (b body : Bytes), t.client.pubs[p]? = some pb ∧ t.client.tx[j]? = some b ∧ IsFrame b hdr body ∧
          hdr.seq_no = pb.orig.header.seq_no ∧ seqVal pb.orig.header.seq_no = seqVal cl.rqst.header.seq_no) := by
  have inv0 := sys_run_inv hrun hu (sessions_start h0).inv
  have inv := sys_run_inv hrun2 hu2 inv0
  have late := late_run hD hdecl hu2 hrun2 inv0 (late_start inv0.reach (sys_consist hD hdecl inv0) (by
    obtain ⟨d, cd, x, h1, h2⟩ := hdone
    exact ⟨d, cd, x, h1, result_eq cd ▸ h2⟩))
  obtain ⟨hsz, _⟩ := define_dispatch_ok hD
  obtain ⟨_, din, _, _, _⟩ := c10_dispatcher_key_length _ _ hsz
  have din : DistinctAt (keyLen S.disp.n) (a.endpoint_list.endpoints.map (·.req) ++ a.topic_in_list.topics.map (·.key)) := din
  obtain ⟨o, ho, hcar, hkind, hkey, hseq⟩ := completed hD hdecl inv hc hres
  obtain ⟨r, hr, ek, er⟩ := inv.calls c cl hc
  have typed : ∀ x ∈ t.client.calls, x.typed = true := by
    intro x hx
    obtain ⟨n, hn⟩ := List.mem_iff_getElem?.mp hx
    exact inv.typed n x hn
  have uniq : ∀ (c' : Nat) (cl' : Call), t.client.calls[c']? = some cl' →
      seqVal cl'.rqst.header.seq_no = seqVal cl.rqst.header.seq_no → c' = c := by
    intro c2 cl2 h2 e2
    by_cases hne : c2 = c
    · exact hne
    · exact absurd e2 (c37_sequence_condition inv.reach typed hlen hc c2 cl2 hne h2)
  -- what was received with the call's sequence number is its own request, too short, or a publication
  have origin : ∀ {j : Nat} {hdr : VarHeader} {body : Bytes}, Taken t j hdr body →
      seqVal hdr.seq_no = seqVal cl.rqst.header.seq_no →
      (RequestOf t c cl j hdr ∧ ¬ LongEnough S.disp hdr) ∨
      ∃ (p : Nat) (pb : Pub), t.client.pubs[p]? = some pb ∧ hdr.seq_no = pb.orig.header.seq_no ∧ ∃ u ∈ a.topic_in_list.topics,
        (LongEnough S.disp hdr → rxShort S.disp hdr = short (keyLen S.disp.n) u.key) := by
    intro j hdr body ht hs
    obtain ⟨g, hg, e1, e2⟩ := taken_frame inv ht
    obtain ⟨b, t1, t2⟩ := ht
    rcases late.enq g hg with ⟨c', cl', k, h1, h2, h3⟩ | ⟨p, pb, k, h1, h2, h3⟩
    · have esq : hdr.seq_no = cl'.rqst.header.seq_no := by rw [← e1, h2]; rfl
      have ec : c' = c := uniq c' cl' h1 (by rw [← esq]; exact hs)
      subst ec
      rw [hc] at h1
      cases h1
      have hk := h3 hlate
      subst hk
      refine .inl ⟨⟨hc, ⟨b, t1, (isFrame_iff ..).mpr ?_⟩, ⟨keyLen S.kkind, ?_⟩, esq, fun c2 cl2 q1 q2 => uniq c2 cl2 q1 (q2.trans hs)⟩, ?_⟩
      · rw [show cl.rqst.body = body by rw [← e2, h2]; rfl]; exact t2
      · rw [← e1, h2]; exact (shrink_shortened cl.rqst S.kkind).key
      · intro hl
        rw [LongEnough, ← e1, h2, shrink8_key _ _ ek, short_length] at hl
        omega
    · obtain ⟨u, hu, e⟩ := inv.pubs p pb h1
      exact .inr ⟨p, pb, h1, by rw [← e1, h2]; rfl, u, hu,
        fun hl => rxShort_of_long hl (by rw [← e1, h2]; exact shrink8_key _ _ e)⟩
  have isErr : ∀ (x : Bool), x = err → keyBytes o.frame.hdr.key = short (keyLen S.kkind) (if x then a.std.error else r.resp) := by
    intro x hx
    subst hx
    cases x with
    | true => rw [hkey, if_pos rfl, wantKey, ← hcfg]; rfl
    | false => rw [hkey, wantKey, ← er]; rfl
  have hkey := isErr err rfl
  cases hkind with
  | err j hdr body e hsrc ht hs hm =>
    rw [hm.seq] at hseq
    have herr : err = true := by
      cases err with
      | true => rfl
      | false => exact absurd (hkey.symm.trans hm.key) (hdist r hr)
    refine ⟨herr, o, ho, j, hdr, e, hcar, hsrc, hm.body, ?_⟩
    rcases origin ht hseq with ⟨q1, q2⟩ | ⟨p, pb, q1, q2, _⟩
    · exact .inl ⟨q1, hs.mpr q2⟩
    · obtain ⟨b, t1, t2⟩ := ht
      exact .inr ⟨p, pb, b, body, q1, t1, (isFrame_iff ..).mpr t2, q2, by rw [← q2]; exact hseq⟩
  | out u seq b hu hm =>
    refine absurd (hm.key.symm.trans hkey) ?_
    cases err with
    | true => exact hdist' u hu
    | false => exact fun e => apart_parts hapart (List.mem_map.mpr ⟨r, hr, rfl⟩) (List.mem_map.mpr ⟨u, hu, rfl⟩) e.symm
  | reply j hdr body b req resp ht hq hp hl hrx hm hrep =>
    rw [hm.seq] at hseq
    rcases origin ht hseq with ⟨_, q2⟩ | ⟨p, pb, _, _, u, hu, q3⟩
    · exact absurd hl q2
    · exact absurd (hrx.symm.trans (q3 hl)) (distinct_parts din hq (List.mem_map.mpr ⟨u, hu, rfl⟩))
  | old k j' t' h _ _ hlt ht hrole hh hname =>
    have st := sessions_start h0
    obtain ⟨x, hx⟩ := sys_run_tasks hrun
    obtain ⟨y, hy⟩ := sys_run_tasks hrun2
    rw [sys_run_old hrun2, sys_run_old hrun, st.old] at hlt
    rw [hy, hx, List.append_assoc, List.getElem?_append_left hlt] at ht
    obtain ⟨e, he, inve, hle, body, ht, hfor⟩ := st.tasks k j' t' ht
    rcases hnone with rfl | hnone
    · cases he
    · obtain ⟨_, _, _, hfl, _⟩ := task_request hD hdecl inve hle ht hfor hrole hh hname
      rw [(define_dispatch_ok hD).2.2.1] at hh
      exact absurd hfl (hnone h hh)

/-! ### Concrete systems -/

/-- A key that agrees with `exKey b` at one byte only. -/
def exKey' (b : Byte) : Key := ⟨0#8, 0#8, 0#8, 0#8, b, 0#8, 0#8, 0#8⟩

/-- The application without its publishing topic handler (whose frames have keys of one byte). -/
def exQuietApp : App Nat WireTxErrorKind Nat Nat := { exSysApp with tps := [exTopic] }

def exQuiet : SysCfg Nat WireTxErrorKind Nat Nat := { exSys with disp := { exSysDisp with tps := [exTopic] }, kkind := .Key4 }

theorem exQuietApp_ok : define_dispatch exQuietApp = .ok exQuiet.disp := by
  have h : needed_sz exQuietApp.sizer = .ok 1 := by decide +kernel
  unfold define_dispatch
  rw [h]
  simp only [Exec.ok_bind, kind_of_sz, if_true, merge_types_eq]
  rfl

theorem exQuietApp_declared (n : VarKeyKind) : Declared exQuietApp n where
  ping := by decide
  schemas := by decide
  schema_topic := by decide
  names := by decide
  sends := by
    intro t ht g hg c hdr v fr hm
    simp only [exQuietApp, List.mem_cons, List.not_mem_nil, or_false] at ht
    subst ht
    cases hg

/-- A call the handler answers with `x`, then one with a body it cannot decode. -/
def exLongAt (x : Byte) : List (SLabel Nat) :=
  sysCall 0 3#8 0x83#8 [7] ++ sysSend ++ [.serve, .flush] ++
  sysRecv [0xA0, 0x83, 0, 0, 0, 0, 0, 0, 0, x] (some ⟨0, false⟩) ++ [.client (.call_ok 0)] ++
  sysCall 1 3#8 0x83#8 [1, 2] ++ sysSend ++ [.serve, .flush] ++
  sysRecv [0xA0, 0xE0, 0, 0, 0, 1, 0, 0, 0, 0xEE] (some ⟨1, true⟩) ++ [.client (.call_err 1)]

def exLongRun : List (SLabel Nat) := exLongAt 7

set_option synthInstance.maxSize 1000 in
theorem exLongRun_result : (sys_run exQuiet exLongRun (Sys.new 0)).map (fun s => (s.client.calls.map result, s.client.tx)) =
    some ([some (false, ⟨⟨.Key4 ⟨0x83, 0, 0, 0⟩, .Seq4 0⟩, [7]⟩, 0), some (true, ⟨⟨.Key4 ⟨0xE0, 0, 0, 0⟩, .Seq4 1⟩, [0xEE]⟩, 1)],
      [[0xE0, 3, 0, 0, 0, 0, 0, 0, 0, 0, 0, 0, 0, 7], [0xA0, 3, 0, 0, 0, 1, 0, 0, 0, 1, 2]]) := by decide +kernel

/-- The first three theorems apply: the server's keys are longer than the dispatcher's, and the second call is refused, but
not for its key. -/
example : define_dispatch exQuietApp = .ok exQuiet.disp ∧ Declared exQuietApp exQuiet.kkind ∧
    keyLen exQuiet.disp.n < keyLen exQuiet.kkind ∧ exQuiet.cfg.err_key = exQuietApp.std.error ∧
    (∀ r ∈ exQuietApp.endpoint_list.endpoints, short (keyLen exQuiet.kkind) r.resp ≠ short (keyLen exQuiet.kkind) exQuietApp.std.error) ∧
    (∀ t ∈ exQuietApp.topic_out_list.topics, short (keyLen exQuiet.kkind) t.key ≠ short (keyLen exQuiet.kkind) exQuietApp.std.error) ∧
    ∀ l ∈ exLongRun, Used exQuietApp l :=
  ⟨exQuietApp_ok, exQuietApp_declared _, by decide, rfl, by decide, by decide, (by decide : ∀ l ∈ exLongRun, Used exSysApp l)⟩

set_option synthInstance.maxSize 1000 in
/-- They apply to the next client as well, which has to learn the length of the keys again. -/
example : (∀ l ∈ exLongAt 8, Used exQuietApp l) ∧ ∃ s t cl, Sessions exQuietApp exQuiet ([] ++ [s]) s.reconnect ∧
    sys_run exQuiet (exLongAt 8) s.reconnect = some t ∧ t.client.calls[1]? = some cl ∧
    result cl = some (true, ⟨⟨.Key4 ⟨0xE0, 0, 0, 0⟩, .Seq4 1⟩, [0xEE]⟩, 1) ∧
    t.client.tx = [[0xE0, 3, 0, 0, 0, 0, 0, 0, 0, 0, 0, 0, 0, 7], [0xA0, 3, 0, 0, 0, 1, 0, 0, 0, 1, 2]] := by
  refine ⟨(by decide : ∀ l ∈ exLongAt 8, Used exSysApp l), ?_⟩
  have h : ((sys_run exQuiet exLongRun (Sys.new 0)).bind fun s => (sys_run exQuiet (exLongAt 8) s.reconnect).map fun t =>
      (s.client.calls.length, t.client.calls[1]?.map result, t.client.tx)) =
      some (2, some (some (true, ⟨⟨.Key4 ⟨0xE0, 0, 0, 0⟩, .Seq4 1⟩, [0xEE]⟩, 1)),
        [[0xE0, 3, 0, 0, 0, 0, 0, 0, 0, 0, 0, 0, 0, 7], [0xA0, 3, 0, 0, 0, 1, 0, 0, 0, 1, 2]]) := by decide +kernel
  obtain ⟨s, h1, h⟩ := Option.bind_eq_some_iff.mp h
  obtain ⟨t, h2, h⟩ := Option.map_eq_some_iff.mp h
  simp only [Prod.mk.injEq] at h
  obtain ⟨h3, h4, h5⟩ := h
  obtain ⟨cl, h6, h7⟩ := Option.map_eq_some_iff.mp h4
  exact ⟨s, t, cl, .next [] _ s exLongRun (.first 0) (by decide : ∀ l ∈ exLongRun, Used exSysApp l) h1 (by rw [h3]; decide), h2, h6, h7, h5⟩

/-- An application that needs keys of two bytes: an incoming topic agrees with a request key at one. -/
def exShortApp : App Nat WireTxErrorKind Nat Nat :=
  { exQuietApp with
    topic_in_list := ⟨.ToServer, [], [⟨[], exKey 6#8⟩, ⟨[], exKey 7#8⟩, ⟨[], exKey 8#8⟩, ⟨[], exKey' 3#8⟩]⟩ }

/-- It is served with keys of one byte. -/
def exShort : SysCfg Nat WireTxErrorKind Nat Nat :=
  { exSys with
    disp := { exSysDisp with
      n := .Key2
      tps := [exTopic]
      device_map := ⟨[], exShortApp.endpoint_list.endpoints, exShortApp.topic_in_list.topics, exShortApp.topic_out_list.topics, .Key2⟩ }
    kkind := .Key1 }

theorem exShortApp_ok : define_dispatch exShortApp = .ok exShort.disp := by
  have h : needed_sz exShortApp.sizer = .ok 2 := by decide +kernel
  unfold define_dispatch
  rw [h]
  simp only [Exec.ok_bind, kind_of_sz, if_true, merge_types_eq]
  rfl

theorem exShortApp_declared (n : VarKeyKind) : Declared exShortApp n :=
  ⟨by decide, by decide, by decide, by decide, (exQuietApp_declared n).sends⟩

/-- A call, answered. -/
def exShortRun : List (SLabel Nat) :=
  sysCall 0 3#8 0x83#8 [7] ++ sysSend ++ [.serve, .flush] ++ sysRecv [0x20, 0x83, 0, 0, 0, 0, 7] (some ⟨0, false⟩) ++
  [.client (.call_ok 0)]

/-- The same call once more. -/
def exShortMore : List (SLabel Nat) :=
  sysCall 1 3#8 0x83#8 [7] ++ sysSend ++ [.serve, .flush] ++ sysRecv [0x20, 0xE0, 1, 0, 0, 0, 0xEE] (some ⟨1, true⟩) ++
  [.client (.call_err 1)]

/-- The message is a refusal for a short key. -/
def isTooSmall : Body Nat → Bool
  | .err .KeyTooSmall => true
  | _ => false

set_option synthInstance.maxSize 1000 in
/-- The first call is answered, the second, the same, is refused. -/
theorem c75_short_second_call_refused :
    (sys_run exShort exShortRun (Sys.new 0)).map (fun s => (s.client.calls.map result, (sys_run exShort exShortMore s).map
      fun t => (t.client.calls.map result, t.outs.map fun o => isTooSmall o.frame.body))) =
    some ([some (false, ⟨⟨.Key1 ⟨0x83⟩, .Seq4 0⟩, [7]⟩, 0)],
      some ([some (false, ⟨⟨.Key1 ⟨0x83⟩, .Seq4 0⟩, [7]⟩, 0), some (true, ⟨⟨.Key1 ⟨0xE0⟩, .Seq4 1⟩, [0xEE]⟩, 1)], [false, true])) := by
  decide +kernel

instance decUsedShort (l : SLabel Nat) : Decidable (Used exShortApp l) := by
  cases l with
  | client l => cases l <;> simp only [Used] <;> infer_instance
  | _ => simp only [Used] <;> infer_instance

/-- The theorem about short keys applies to it. -/
example : define_dispatch exShortApp = .ok exShort.disp ∧ Declared exShortApp exShort.kkind ∧
    keyLen exShort.kkind < keyLen exShort.disp.n ∧ KeysApart exShortApp exShort ∧ exShort.cfg.err_key = exShortApp.std.error ∧
    (∀ r ∈ exShortApp.endpoint_list.endpoints, short (keyLen exShort.kkind) r.resp ≠ short (keyLen exShort.kkind) exShortApp.std.error) ∧
    (∀ t ∈ exShortApp.topic_out_list.topics, short (keyLen exShort.kkind) t.key ≠ short (keyLen exShort.kkind) exShortApp.std.error) ∧
    (∀ l ∈ exShortRun, Used exShortApp l) ∧ (∀ l ∈ exShortMore, Used exShortApp l) ∧ Sessions exShortApp exShort [] (Sys.new 0) :=
  ⟨exShortApp_ok, exShortApp_declared _, by decide, exSysApp_apart, rfl, by decide, by decide,
    by decide, by decide, .first 0⟩

/-- An application that needs keys of two bytes as an outgoing topic agrees with a response key at one. -/
def exCrossApp : App Nat WireTxErrorKind Nat Nat :=
  { exQuietApp with
    topic_out_list := ⟨.ToClient, [], [⟨[], exKey 0x90#8⟩, ⟨[], exKey 0x91#8⟩, ⟨[], exKey' 0x85#8⟩]⟩ }

/-- It is served with keys of one byte. -/
def exCross : SysCfg Nat WireTxErrorKind Nat Nat :=
  { exSys with
    disp := { exSysDisp with
      n := .Key2
      tps := [exTopic]
      device_map := ⟨[], exCrossApp.endpoint_list.endpoints, exCrossApp.topic_in_list.topics, exCrossApp.topic_out_list.topics, .Key2⟩ }
    kkind := .Key1 }

theorem exCrossApp_ok : define_dispatch exCrossApp = .ok exCross.disp := by
  have h : needed_sz exCrossApp.sizer = .ok 2 := by decide +kernel
  unfold define_dispatch
  rw [h]
  simp only [Exec.ok_bind, kind_of_sz, if_true, merge_types_eq]
  rfl

/-- A call of the spawned endpoint; before its handler replies the application publishes on the topic. -/
def exCrossRun : List (SLabel Nat) :=
  sysCall 0 5#8 0x85#8 [1] ++ sysSend ++ [.serve, .app_publish (exKey' 0x85#8) (.Seq4 0) 99] ++
  sysRecv [0x20, 0x85, 0, 0, 0, 0, 99] (some ⟨0, false⟩) ++ [.client (.call_ok 0)]

instance decUsedCross (l : SLabel Nat) : Decidable (Used exCrossApp l) := by
  cases l with
  | client l => cases l <;> simp only [Used] <;> infer_instance
  | _ => simp only [Used] <;> infer_instance

set_option synthInstance.maxSize 1000 in
/-- With keys so short the publication is returned by the call as its reply. -/
theorem c75_short_keys_cross : (∀ l ∈ exCrossRun, Used exCrossApp l) ∧ keyLen exCross.kkind < keyLen exCross.disp.n ∧
    (sys_run exCross exCrossRun (Sys.new 0)).map (fun s => (s.client.calls.map result, s.outs.map Out.src)) =
      some ([some (false, ⟨⟨.Key1 ⟨0x85⟩, .Seq4 0⟩, [99]⟩, 0)], [.app]) :=
  ⟨by decide, by decide, by decide +kernel⟩

end PRpc.Props
