import Verif.Lemmas.Postcard
import Verif.Props.Lossy
import Verif.Props.Query
/-! C85: the bytes of the standard messages. -/

namespace PRpc.Props

open Spec

variable {V E SC Ctx : Type}

/-- C85 (bytes): errors, totals and the items of a schema report, from a device with or without the standard library, are the bytes
of their layout. -/
theorem c85_layout (encN : Nty → Bytes) (w : Nat) (hw : 0 < w) :
    (∀ e, (enc_wire_error e).map BitVec.toNat = errorLayout e) ∧ (∀ t, (enc_totals t).map BitVec.toNat = totalsLayout t) ∧
    (∀ n, (enc_u32 n).map BitVec.toNat = digits n.toNat) ∧
    ∀ d, ItemOk (fun _ => true) w w (fun _ => True) d → (enc_schema_data encN w d).map BitVec.toNat = itemLayout encN d ∧
      (enc_owned_schema_data encN w d).map BitVec.toNat = itemLayout encN d := by
  refine ⟨fun e => ?_, fun t => ?_, enc_u32_digits, fun d hd => ?_⟩
  · cases e with
    | FrameTooLong len max =>
      simp only [enc_wire_error, List.map_append, enc_u32_digits len, enc_u32_digits max]
      rfl
    | FrameTooShort len =>
      simp only [enc_wire_error, List.map_append, enc_u32_digits len]
      rfl
    | _ => rfl
  · simp only [enc_totals, List.map_append, enc_u32_digits, totalsLayout, List.append_assoc]
  · cases d with
    | «Type» t => exact ⟨rfl, rfl⟩
    | Endpoint path rq rs =>
      have hp := enc_str_layout hw hd.2.1
      simp only [enc_schema_data, enc_owned_schema_data, List.map_append, hp, itemLayout, List.append_assoc]
      exact ⟨rfl, rfl⟩
    | Topic path k dir =>
      have hp := enc_str_layout hw hd.2.1
      simp only [enc_schema_data, enc_owned_schema_data, List.map_append, hp]
      cases dir <;> simp only [itemLayout, List.append_assoc] <;> exact ⟨rfl, rfl⟩

example : errorLayout (.FrameTooLong 300#32 5#32) = [0, 172, 2, 5] ∧ errorLayout .KeyTooSmall = [6] ∧
    totalsLayout ⟨2, 300, 0, 1, 0⟩ = [2, 172, 2, 0, 1, 0] ∧
    itemLayout (fun _ => []) (.Topic [0x61#8, 0x62#8] ⟨1, 2, 3, 4, 5, 6, 7, 8⟩ .ToClient) = [2, 2, 97, 98, 1, 2, 3, 4, 5, 6, 7, 8, 1] := by
  simp [errorLayout, totalsLayout, itemLayout, textLayout, key8Layout, digits]

/-- C85 (errors): a client takes the bytes of an error for that error and nothing less; an error it does not know is a decoding
error. -/
theorem c85_error : (∀ e, Understood (from_bytes take_wire_error) (enc_wire_error e) e) ∧
    ∀ (n : BitVec 32) (rest : Bytes), 7 ≤ n.toNat → from_bytes take_wire_error (enc_u32 n ++ rest) = none := by
  refine ⟨fun e => understood_of local_wire_error (reads_wire_error e), fun n rest h => ?_⟩
  have : ∀ k : BitVec 32, k.toNat < 7 → n ≠ k := fun k hk e => by rw [e] at h; omega
  rw [from_bytes, take_wire_error, dec_bind, reads_u32]
  simp only
  rw [if_neg (this _ (by decide)), if_neg (this _ (by decide)), if_neg (this _ (by decide)), if_neg (this _ (by decide)),
    if_neg (this _ (by decide)), if_neg (this _ (by decide)), if_neg (this _ (by decide))]
  rfl

example : from_bytes take_wire_error [0x00#8, 0xAC#8, 0x02#8, 0x05#8] = some (.FrameTooLong 300#32 5#32) ∧
    from_bytes take_wire_error [0x00#8, 0xAC#8, 0x02#8] = none ∧ from_bytes take_wire_error [0x07#8] = none := by decide

/-- C85 (numbers): a number a ping carries is understood in both directions. -/
theorem c85_number (n : BitVec 32) : Understood (from_bytes take_u32) (enc_u32 n) n := understood_of local_u32 (reads_u32 n)

example : from_bytes take_u32 (enc_u32 0xFFFFFFFF#32) = some 0xFFFFFFFF#32 ∧ (enc_u32 0xFFFFFFFF#32).length = 5 := by decide

/-- C85 (totals): a client takes the bytes of the totals of a schema report for these totals and nothing less. -/
theorem c85_totals (t : SchemaTotals) : Understood (from_bytes take_totals) (enc_totals t) t :=
  understood_of local_totals (reads_totals t)

example : from_bytes take_totals (enc_totals ⟨2, 300, 0, 1, 7⟩) = some ⟨2, 300, 0, 1, 7⟩ := by decide

/-- C85 (items): a host takes the bytes of an item of a schema report for that item and nothing less, whether or not the device has
the standard library and whatever the sizes of their `usize`, if the path's length is a `usize` of both. -/
theorem c85_item {takeN : Dec Nty} {encN : Nty → Bytes} {utf8 : Bytes → Bool} {wd wh : Nat} (hwd : 0 < wd)
    (hwh : wh = 2 ∨ wh = 4 ∨ wh = 8) {d : SchemaData} (hd : ItemOk utf8 wd wh (fun t => Understood (from_bytes takeN) (encN t) t) d) :
    Understood (from_bytes (take_owned_schema_data takeN utf8 wh)) (enc_schema_data encN wd d) d ∧
    Understood (from_bytes (take_owned_schema_data takeN utf8 wh)) (enc_owned_schema_data encN wd d) d := by
  cases d with
  | «Type» t =>
    have hb : ∀ b, from_bytes (take_owned_schema_data takeN utf8 wh) (0#8 :: b) = (from_bytes takeN b).map .Type := by
      intro b
      simp only [from_bytes, take_owned_schema_data, dec_bind]
      rw [show take_u32 (0#8 :: b) = some (0#32, b) from rfl]
      simp only [if_true, dec_bind]
      cases takeN b <;> rfl
    have hu : Understood (from_bytes (take_owned_schema_data takeN utf8 wh)) (0#8 :: encN t) (.Type t) := by
      refine ⟨fun rest => ?_, fun n hn => ?_⟩
      · rw [List.cons_append, hb, hd.1]; rfl
      · cases n with
        | zero => rfl
        | succ n =>
          rw [List.take_succ_cons, hb, hd.2 n (by simpa using hn)]; rfl
    exact ⟨hu, hu⟩
  | Endpoint path rq rs =>
    have hr := reads_schema (takeN := dec_fail) (encN := encN) (d := .Endpoint path rq rs) hwd hwh hd
    exact ⟨understood_other (.inl rfl) (understood_of (local_schema local_fail utf8 wh) hr.1),
      understood_other (.inl rfl) (understood_of (local_schema local_fail utf8 wh) hr.2)⟩
  | Topic path k dir =>
    have hr := reads_schema (takeN := dec_fail) (encN := encN) (d := .Topic path k dir) hwd hwh hd
    exact ⟨understood_other (.inr rfl) (understood_of (local_schema local_fail utf8 wh) hr.1),
      understood_other (.inr rfl) (understood_of (local_schema local_fail utf8 wh) hr.2)⟩

/-- The theorem applies, to a device with two-byte and a host with eight-byte sizes. -/
example : ItemOk (fun _ => true) 2 8 (fun t => Understood (from_bytes (dec_fail : Dec Nty)) [] t)
      (.Topic [0x61#8, 0x62#8] ⟨1, 2, 3, 4, 5, 6, 7, 8⟩ .ToClient) ∧
    from_bytes (take_owned_schema_data dec_fail (fun _ => true) 8)
      [2#8, 2#8, 0x61#8, 0x62#8, 1#8, 2#8, 3#8, 4#8, 5#8, 6#8, 7#8, 8#8, 1#8] =
      some (.Topic [0x61#8, 0x62#8] ⟨1, 2, 3, 4, 5, 6, 7, 8⟩ .ToClient) := by
  exact ⟨⟨rfl, by decide, by decide⟩, rfl⟩

/-- C85 (log messages): a host takes the text of a log message, with its length padded or not, for that text, if it is UTF-8 and
the sizes of the host are at least as wide as those of the device. -/
theorem c85_log_text {utf8 : Bytes → Bool} {wd wh : Nat} {b s : Bytes} (h : IsText wd b s) (hu : utf8 s = true) (hw : wd ≤ wh)
    (hwh : wh = 2 ∨ wh = 4 ∨ wh = 8) (hs : s.length < 2 ^ (8 * wh)) : from_bytes (take_str utf8 wh) b = some s := by
  obtain ⟨p1, p2⟩ := pow_split wh hwh
  have hv : take_varint (varint_max wh) (2 ^ (8 * wh % 7) - 1) b = some (s.length, s) := by
    refine take_varint_leb h.1 ?_ ?_ p2
    · have := h.2
      simp only [varint_max]
      omega
    · rw [p1]
      omega
  rw [from_bytes, take_str, dec_bind, hv]
  simp only [dec_bind, take_n, Nat.le_refl, if_true, List.take_length]
  rw [if_pos hu]
  rfl

/-- A formatted message of a device with four-byte sizes and a large buffer has a padded length. -/
example : IsText 4 [0x82#8, 0x80#8, 0x00#8, 0x68#8, 0x69#8] [0x68#8, 0x69#8] ∧
    from_bytes (take_str (fun _ => true) 8) [0x82#8, 0x80#8, 0x00#8, 0x68#8, 0x69#8] = some [0x68#8, 0x69#8] :=
  ⟨⟨rfl, by decide⟩, by decide⟩

/-- A text with a length padded beyond what the host's sizes need is rejected, so the bound is needed. -/
theorem c85_padding_bound : ∃ b s : Bytes, leb b = some (s.length, s) ∧ from_bytes (take_str (fun _ => true) 2) b = none :=
  ⟨[0x82#8, 0x80#8, 0x80#8, 0x00#8, 0x68#8, 0x69#8], [0x68#8, 0x69#8], rfl, by decide⟩

/-- C85 (sizes): an error is at most eleven bytes, one byte if the dispatcher sends it; totals are five to twenty-five bytes and a
number is one to five. -/
theorem c85_sizes : (∀ e, 0 < (enc_wire_error e).length ∧ (enc_wire_error e).length ≤ 11) ∧
    (∀ e, e = .DeserFailed ∨ e = .SerFailed ∨ e = .UnknownKey ∨ e = .FailedToSpawn ∨ e = .KeyTooSmall → (enc_wire_error e).length = 1) ∧
    (∀ t, 5 ≤ (enc_totals t).length ∧ (enc_totals t).length ≤ 25) ∧ ∀ n, 0 < (enc_u32 n).length ∧ (enc_u32 n).length ≤ 5 := by
  refine ⟨fun e => ?_, fun e h => ?_, fun t => ?_, enc_u32_len⟩
  · cases e with
    | FrameTooLong len max =>
      have h1 := enc_u32_len len
      have h2 := enc_u32_len max
      have h0 : (enc_u32 0#32).length = 1 := rfl
      simp only [enc_wire_error, List.length_append, h0]
      omega
    | FrameTooShort len =>
      have h1 := enc_u32_len len
      have h0 : (enc_u32 1#32).length = 1 := rfl
      simp only [enc_wire_error, List.length_append, h0]
      omega
    | _ => exact ⟨by decide, by decide⟩
  · rcases h with rfl | rfl | rfl | rfl | rfl <;> rfl
  · have h1 := enc_u32_len t.types_sent
    have h2 := enc_u32_len t.endpoints_sent
    have h3 := enc_u32_len t.topics_in_sent
    have h4 := enc_u32_len t.topics_out_sent
    have h5 := enc_u32_len t.errors
    simp only [enc_totals, List.length_append]
    omega

example : (enc_wire_error (.FrameTooLong 0xFFFFFFFF#32 0xFFFFFFFF#32)).length = 11 ∧
    (enc_totals ⟨0xFFFFFFFF, 0xFFFFFFFF, 0xFFFFFFFF, 0xFFFFFFFF, 0xFFFFFFFF⟩).length = 25 ∧ (enc_totals ⟨0, 0, 0, 0, 0⟩).length = 5 := by
  decide

/-- C85 (schema report): if the schema messages that arrived are those the device with map `m` writes, and the reply is its totals,
the query has been answered in full (C82), and every message decodes. -/
theorem c85_answered {takeN : Dec Nty} {encN : Nty → Bytes} {utf8 : Bytes → Bool} {wd wh : Nat} (hwd : 0 < wd)
    (hwh : wh = 2 ∨ wh = 4 ∨ wh = 8) {std : Bool} {encV : V → Bytes} {cfg : Cfg} {topic req resp : Key} {hash : Bytes → Nty → Key}
    {prims : List Nty} {m : DeviceMap} {q : Query} {qc : QCfg}
    (hqc : qc = ⟨cfg, topic, req, resp, from_bytes (take_owned_schema_data takeN utf8 wh), from_bytes take_totals⟩)
    (hok : ∀ d ∈ schemaMsgs m, ItemOk utf8 wd wh (fun t => Understood (from_bytes takeN) (encN t) t) d)
    (hm : (schemaArrivals qc q).map (·.body) = (schemaMsgs m).map fun d => enc_body encV encN wd std (.schema d))
    {c : Nat} {cl : Call} {f : RpcFrame} {i : Nat} {t : SchemaTotals} (hc : q.call = some c) (hcl : q.client.calls[c]? = some cl)
    (hph : cl.phase = .done (.Resp f i)) (hf : f.body = enc_body encV encN wd std (.totals t)) (ht : TotalsFor m t) (hte : t.errors = 0)
    (hep : ∀ e ∈ m.endpoints, (∃ ty ∈ prims ++ m.types, hash e.path ty = e.req) ∧ ∃ ty ∈ prims ++ m.types, hash e.path ty = e.resp)
    (htp : ∀ e ∈ m.topics_in ++ m.topics_out, ∃ ty ∈ prims ++ m.types, hash e.path ty = e.key) :
    Spec.Answered qc hash prims m q ∧ ∀ f ∈ schemaArrivals qc q, (qc.decode f.body).isSome := by
  subst hqc
  have hdec : ∀ d ∈ schemaMsgs m, from_bytes (take_owned_schema_data takeN utf8 wh) (enc_body encV encN wd std (.schema d)) = some d := by
    intro d hd
    have h := c85_item hwd hwh (hok d hd)
    cases std with
    | true =>
      have := h.2.1 []
      rwa [List.append_nil] at this
    | false =>
      have := h.1.1 []
      rwa [List.append_nil] at this
  have hmsgs := congrArg (List.map (from_bytes (take_owned_schema_data takeN utf8 wh))) hm
  rw [List.map_map, List.map_map, List.map_congr_left (g := some) (f := from_bytes (take_owned_schema_data takeN utf8 wh) ∘ _) hdec] at hmsgs
  refine ⟨⟨hmsgs, ⟨c, cl, f, i, t, hc, hcl, hph, ?_, ht, hte⟩, hep, htp⟩, fun f hf => ?_⟩
  · have := (c85_totals t).1 []
    rw [List.append_nil] at this
    rw [hf]
    exact this
  · have : from_bytes (take_owned_schema_data takeN utf8 wh) f.body ∈ (schemaMsgs m).map some := by
      rw [← hmsgs]
      exact List.mem_map.mpr ⟨f, hf, rfl⟩
    obtain ⟨d, _, hd⟩ := List.mem_map.mp this
    show (from_bytes (take_owned_schema_data takeN utf8 wh) f.body).isSome = true
    rw [← hd]
    rfl

/-- C85 (errors of calls): in every session of a server, a call that ended with an error frame returns `Err(Wire(e))` with the very error the server sent, or a
decoding error if not all of it arrived. -/
theorem c85_error_reported (a : App V E SC Ctx) (S : SysCfg V E SC Ctx) (hD : define_dispatch a = .ok S.disp)
    (hdecl : Declared a S.kkind) (hcfg : S.cfg.err_key = a.std.error)
    (hdist : ∀ r ∈ a.endpoint_list.endpoints, short (keyLen S.kkind) r.resp ≠ short (keyLen S.kkind) a.std.error)
    (hdist' : ∀ t ∈ a.topic_out_list.topics, short (keyLen S.kkind) t.key ≠ short (keyLen S.kkind) a.std.error)
    {encV : V → Bytes} {encN : Nty → Bytes} {w : Nat} {std : Bool} (henc : S.enc = enc_body encV encN w std)
    {es : List (Sys V E SC Ctx)} {s0 : Sys V E SC Ctx} (h0 : Sessions a S es s0)
    {ls : List (SLabel V)} {s : Sys V E SC Ctx} (hu : ∀ l ∈ ls, Used a l) (hrun : sys_run S ls s0 = some s)
    (hlen : s.client.calls.length < 2 ^ 32) {R : Type} (decode : Bytes → Option R) {c : Nat} {cl : Call} {f : RpcFrame} {i : Nat}
    (hc : s.client.calls[c]? = some cl) (hres : cl.phase = .done (.ErrResp f i)) :
    ∃ o ∈ s.outs, ∃ j e, o.src = .req j ∧ o.frame.body = .err e ∧ CarriesPart S.enc o f ∧
      (Carries S.enc o f → finish_call decode (from_bytes take_wire_error) (.ErrResp f i) = .Wire e) ∧
      (¬ Carries S.enc o f → finish_call decode (from_bytes take_wire_error) (.ErrResp f i) = .Postcard) := by
  obtain ⟨o, ho, j, e, h1, h2, h3, h4⟩ := c74_typed_error a S hD hdecl hcfg hdist hdist' h0 hu hrun hlen decode (from_bytes take_wire_error) hc hres
  have hu := c85_error.1 e
  have he : S.enc (.err e) = enc_wire_error e := by rw [henc]; rfl
  refine ⟨o, ho, j, e, h1, h2, h3, fun hcar => ?_, (h4 (by rw [he]; exact hu.2)).2⟩
  have := hu.1 []
  rw [List.append_nil] at this
  have hb : f.body = enc_wire_error e := by rw [hcar.2, h2, he]
  simp only [finish_call, hb, this]

/-- C85 (ping): a ping with number `n` that returned something returned `n`: over any link, if no endpoint of the application and
not the schema endpoint has the request key of the ping; in sessions after others also if each handler is that of a listed endpoint,
though tasks of the earlier ones may still reply. -/
theorem c85_ping_answer (a : App V E SC Ctx) (S : SysCfg V E SC Ctx) (hD : define_dispatch a = .ok S.disp)
    (hdecl : Declared a S.kkind) (hapart : KeysApart a S)
    (hdist : ∀ r ∈ a.endpoint_list.endpoints, short (keyLen S.kkind) r.resp ≠ short (keyLen S.kkind) a.std.error)
    (hkey : a.std.schemas_req ≠ a.std.ping_req) (hkeys : ∀ h ∈ a.eps, h.req ≠ a.std.ping_req)
    {encV : V → Bytes} {encN : Nty → Bytes} {w : Nat} {std : Bool} (henc : S.enc = enc_body encV encN w std) {val : BitVec 32 → V}
    (hping : a.ping_decode = fun b => (from_bytes take_u32 b).map val) (hval : ∀ n, encV (val n) = enc_u32 n)
    {es : List (Sys V E SC Ctx)} {s0 : Sys V E SC Ctx} (h0 : Sessions a S es s0)
    (hlist : es = [] ∨ ∀ h ∈ a.eps, ∃ r ∈ a.endpoint_list.endpoints, r.req = h.req ∧ r.resp = h.resp)
    {ls : List (SLabel V)} {s : Sys V E SC Ctx} (hu : ∀ l ∈ ls, Used a l) (hrun : sys_run S ls s0 = some s)
    (hlen : s.client.calls.length < 2 ^ 32) {W : Type} (decode_err : Bytes → Option W) {c : Nat} {cl : Call} {f : RpcFrame} {i : Nat}
    {n : BitVec 32} (hc : s.client.calls[c]? = some cl) (hrq : cl.rqst.header.key = .Key8 a.std.ping_req) (hbody : cl.rqst.body = enc_u32 n)
    (hres : cl.phase = .done (.Resp f i)) :
    finish_call (from_bytes take_u32) decode_err (.Resp f i) = .Ok n ∨ finish_call (from_bytes take_u32) decode_err (.Resp f i) = .Postcard := by
  obtain ⟨_, d1, d2, _⟩ := define_dispatch_ok hD
  have inv := sys_run_inv hrun hu (sessions_start h0).inv
  obtain ⟨o, ho, ⟨j, hdr, req, h4, h1, h2, h3⟩ | ⟨_, k, j, t, hst, _⟩⟩ := reply_begins a S hD hdecl hapart hdist inv hlen hc (by rw [result, hres])
  case inr =>
    rcases hlist with rfl | hlist
    · exact absurd hst (stale_none h0 hrun)
    · obtain ⟨g, hg, e⟩ := stale_handler hD inv hc hrq hst hlist
      exact absurd e (hkeys g (by rw [← d2]; exact hg))
  rw [hrq] at h2
  cases h2
  have d4 := define_dispatch_ping hD
  have hb : o.frame.body = .val (val n) := by
    cases h3 with
    | called h g v ctx fr cut hh hq => exact absurd hq (hkeys h (by rw [← d2]; exact hh.mem))
    | spawned h v w i sc fr cut hh hq => exact absurd hq (hkeys h (by rw [← d2]; exact hh.mem))
    | ping v fr cut _ _ _ _ hd hfr =>
      have := (c85_number n).1 []
      rw [List.append_nil] at this
      rw [d4, hping, hbody] at hd
      simp only [this] at hd
      cases hd
      exact hfr
    | schemas t fr cut _ _ hq => exact absurd hq (by rw [d1]; exact hkey)
  have he : S.enc o.frame.body = enc_u32 n := by rw [henc, hb]; exact hval n
  obtain ⟨h6, h7⟩ := typed_part (i := i) (from_bytes take_u32) decode_err h4 (by rw [he]; exact (c85_number n).2)
  by_cases hcar : Carries S.enc o f
  · left
    have := (c85_number n).1 []
    rw [List.append_nil] at this
    simp only [finish_call, hcar.2, he, this]
  · exact .inr (h7 hcar)

/-! ### A concrete system -/

/-- The application of the examples with the numbers of pings as `postcard` has them. -/
def exPcApp : App Nat WireTxErrorKind Nat Nat := { exSysApp with ping_decode := fun b => (from_bytes take_u32 b).map BitVec.toNat }

def exPcDisp : Dispatcher Nat WireTxErrorKind Nat Nat := { exSysDisp with ping_decode := fun b => (from_bytes take_u32 b).map BitVec.toNat }

theorem exPcApp_ok : define_dispatch exPcApp = .ok exPcDisp := by
  have h : needed_sz exPcApp.sizer = .ok 1 := by decide +kernel
  unfold define_dispatch
  rw [h]
  simp only [Exec.ok_bind, kind_of_sz, if_true, merge_types_eq]
  rfl

def exPcSys : SysCfg Nat WireTxErrorKind Nat Nat :=
  { exSys with disp := exPcDisp, enc := enc_body (fun v => enc_u32 (BitVec.ofNat 32 v)) (fun _ => []) 4 false }

theorem exPcApp_declared : Declared exPcApp .Key1 where
  ping := by decide
  schemas := by decide
  schema_topic := by decide
  names := by decide
  sends := exSysApp_declared.sends

theorem exPcApp_apart : KeysApart exPcApp exPcSys :=
  apart_of_distinct (c10_dispatcher_key_length _ _ (define_dispatch_ok exPcApp_ok).1).2.2.1

instance decUsedPc (l : SLabel Nat) : Decidable (Used exPcApp l) := by
  cases l with
  | client l => cases l <;> simp only [Used] <;> infer_instance
  | _ => simp only [Used] <;> infer_instance

/-- A ping with the number 300. -/
def exPingRun : List (SLabel Nat) :=
  sysCall 0 1#8 1#8 [0xAC, 0x02] ++ sysSend ++ [.serve, .flush] ++ sysRecv [0x20, 1, 0, 0, 0, 0, 0xAC, 0x02] (some ⟨0, false⟩) ++
  [.client (.call_ok 0)]

set_option synthInstance.maxSize 1000 in
theorem exPingRun_result : (sys_run exPcSys exPingRun (Sys.new 0)).map (fun s => s.client.calls.map fun cl =>
      (cl.rqst.header.key, cl.rqst.body, result cl)) =
    some [(.Key8 exPcApp.std.ping_req, enc_u32 300#32, some (false, ⟨⟨.Key1 ⟨1⟩, .Seq4 0⟩, [0xAC, 0x02]⟩, 0))] := by decide +kernel

/-- A ping of a first client, and one of the next. -/
theorem exPing_second : ∃ s t cl, Sessions exPcApp exPcSys ([] ++ [s]) s.reconnect ∧ sys_run exPcSys exPingRun s.reconnect = some t ∧
    t.client.calls = [cl] ∧ cl.phase = .done (.Resp ⟨⟨.Key1 ⟨1⟩, .Seq4 0⟩, [0xAC, 0x02]⟩ 0) := by
  have h : ((sys_run exPcSys exPingRun (Sys.new 0)).bind fun s => (sys_run exPcSys exPingRun s.reconnect).map fun t =>
      (s.client.calls.length, t.client.calls.map (·.phase))) = some (1, [.done (.Resp ⟨⟨.Key1 ⟨1⟩, .Seq4 0⟩, [0xAC, 0x02]⟩ 0)]) := by decide +kernel
  obtain ⟨s, h1, h⟩ := Option.bind_eq_some_iff.mp h
  obtain ⟨t, h2, h⟩ := Option.map_eq_some_iff.mp h
  simp only [Prod.mk.injEq] at h
  obtain ⟨cl, cs, h4, h5, h6⟩ := List.map_eq_cons_iff.mp h.2
  cases List.map_eq_nil_iff.mp h6
  exact ⟨s, t, cl, .next [] _ s exPingRun (.first 0) (by decide) h1 (by rw [h.1]; decide), h2, h4, h5⟩

/-- The theorem on pings applies, to both; the ping returns its number. -/
example : define_dispatch exPcApp = .ok exPcSys.disp ∧ Declared exPcApp exPcSys.kkind ∧ KeysApart exPcApp exPcSys ∧
    (∀ r ∈ exPcApp.endpoint_list.endpoints, short (keyLen exPcSys.kkind) r.resp ≠ short (keyLen exPcSys.kkind) exPcApp.std.error) ∧
    exPcApp.std.schemas_req ≠ exPcApp.std.ping_req ∧ (∀ h ∈ exPcApp.eps, h.req ≠ exPcApp.std.ping_req) ∧
    exPcSys.enc = enc_body (fun v => enc_u32 (BitVec.ofNat 32 v)) (fun _ => []) 4 false ∧
    exPcApp.ping_decode = (fun b => (from_bytes take_u32 b).map BitVec.toNat) ∧
    (∀ n : BitVec 32, (fun v => enc_u32 (BitVec.ofNat 32 v)) n.toNat = enc_u32 n) ∧ (∀ l ∈ exPingRun, Used exPcApp l) ∧
    (∀ h ∈ exPcApp.eps, ∃ r ∈ exPcApp.endpoint_list.endpoints, r.req = h.req ∧ r.resp = h.resp) ∧
    (∃ s t cl, Sessions exPcApp exPcSys ([] ++ [s]) s.reconnect ∧ sys_run exPcSys exPingRun s.reconnect = some t ∧
      t.client.calls = [cl] ∧ cl.phase = .done (.Resp ⟨⟨.Key1 ⟨1⟩, .Seq4 0⟩, [0xAC, 0x02]⟩ 0)) ∧
    finish_call (W := Nat) (from_bytes take_u32) (fun _ => none) (.Resp ⟨⟨.Key1 ⟨1⟩, .Seq4 0⟩, [0xAC, 0x02]⟩ 0) = .Ok 300#32 :=
  ⟨exPcApp_ok, exPcApp_declared, exPcApp_apart, by decide, by decide, by decide, rfl, rfl,
    fun n => by simp only [BitVec.ofNat_toNat, BitVec.setWidth_eq], by decide, by decide, exPing_second, rfl⟩

/-- A ping without a number. -/
def exBadPing : List (SLabel Nat) :=
  sysCall 0 1#8 1#8 [] ++ sysSend ++ [.serve, .flush] ++ sysRecv [0x20, 0xE0, 0, 0, 0, 0, 2] (some ⟨0, true⟩) ++
  [.client (.call_err 0)]

theorem exBadPing_result : (sys_run exPcSys exBadPing (Sys.new 0)).map (fun s => s.client.calls.map result) =
    some [some (true, ⟨⟨.Key1 ⟨0xE0⟩, .Seq4 0⟩, [2]⟩, 0)] := by decide +kernel

/-- The theorem on errors applies; the call returns `DeserFailed`. -/
example : exPcSys.cfg.err_key = exPcApp.std.error ∧
    (∀ t ∈ exPcApp.topic_out_list.topics, short (keyLen exPcSys.kkind) t.key ≠ short (keyLen exPcSys.kkind) exPcApp.std.error) ∧
    (∀ l ∈ exBadPing, Used exPcApp l) ∧
    finish_call (R := Nat) (fun _ => none) (from_bytes take_wire_error) (.ErrResp ⟨⟨.Key1 ⟨0xE0⟩, .Seq4 0⟩, [2]⟩ 0) = .Wire .DeserFailed :=
  ⟨rfl, by decide, by decide, rfl⟩

/-- Types for the example: a byte that is the name. -/
def exEncN (t : Nty) : Bytes := [t.name.headD 0]

def exTakeN : Dec Nty := do
  let x ← take_u8
  pure (.mk [x] .UnitStruct)

def exPcQc : QCfg :=
  ⟨exCfg, cKey 5, cKey 1, cKey 2, from_bytes (take_owned_schema_data exTakeN (fun _ => true) 8), from_bytes take_totals⟩

/-- The messages as a device with four-byte sizes writes them, and its totals. -/
def exPcReport : List QLabel :=
  exAsk ++ (schemaMsgs exMap).flatMap (fun d =>
      ([.in_recv (some ([0x00, 5, 0] ++ enc_schema_data exEncN 4 d)), .in_lookup] : List Label).map .client ++ [.poll]) ++
    ([.in_recv (some ([0x00, 2, 0] ++ enc_totals exTotals)), .in_lookup, .in_wake (some ⟨0, false⟩), .call_ok 0] : List Label).map .client

set_option synthInstance.maxSize 1000 in
theorem exPcReport_end : (q_run exPcQc exPcReport Query.new).map (fun q => (q.call, q.client.calls.map Call.phase,
      (schemaArrivals exPcQc q).map (·.body))) =
    some (some 0, [.done (.Resp ⟨⟨.Key1 ⟨2⟩, .Seq1 0⟩, enc_totals exTotals⟩ 0)],
      (schemaMsgs exMap).map fun d => enc_schema_data exEncN 4 d) := by decide +kernel

/-- The theorem on reports applies. -/
example : ∃ q, q_run exPcQc exPcReport Query.new = some q ∧ Spec.Answered exPcQc exHash [] exMap q := by
  obtain ⟨q, e1, e2⟩ := Option.map_eq_some_iff.mp exPcReport_end
  simp only [Prod.mk.injEq] at e2
  obtain ⟨h1, h2, h3⟩ := e2
  refine ⟨q, e1, ?_⟩
  cases hc : q.client.calls with
  | nil => rw [hc] at h2; cases h2
  | cons cl cs =>
    rw [hc] at h2
    simp only [List.map_cons, List.cons.injEq] at h2
    refine (c85_answered (V := Nat) (encV := fun _ => []) (encN := exEncN) (wd := 4) (std := false) (c := 0) (cl := cl) (t := exTotals)
      (by decide) (.inr (.inr rfl)) rfl (fun d hd => ?_) h3 h1 (by rw [hc]; rfl) h2.1 rfl exTotals_for rfl exQuery_keys.1 exQuery_keys.2).1
    have hty : ∀ x : Byte, Understood (from_bytes exTakeN) (exEncN (.mk [x] .UnitStruct)) (.mk [x] .UnitStruct) := fun x =>
      understood_of (local_bind local_u8 fun _ => local_pure _) (fun r => rfl)
    simp only [schemaMsgs, exMap, List.map_cons, List.map_nil, List.cons_append, List.nil_append, List.mem_cons, List.not_mem_nil,
      or_false] at hd
    rcases hd with rfl | rfl | rfl | rfl | rfl
    · exact hty _
    · exact hty _
    all_goals exact ⟨rfl, by decide, by decide⟩

end PRpc.Props
