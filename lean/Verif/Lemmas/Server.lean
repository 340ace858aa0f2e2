import Verif.Lemmas.Schemas
import Verif.Props.Header
/-! Helper lemmas about the server loop. -/

namespace PRpc

theorem map_toNat_inj {a b : Bytes} (h : a.map BitVec.toNat = b.map BitVec.toNat) : a = b := by
  induction a generalizing b with
  | nil => cases b <;> simp_all
  | cons x a ih =>
    cases b with
    | nil => simp at h
    | cons y b =>
      simp only [List.map_cons, List.cons.injEq] at h
      rw [BitVec.eq_of_toNat_eq h.1, ih h.2]

theorem encOf_layout (h : VarHeader) : (encOf h).map BitVec.toNat = Spec.layout h := by
  obtain ⟨bs, e, l, _⟩ := Props.c04_header_layout h
  rw [write_to_vec_eq] at e
  cases e
  exact l

theorem isFrame_iff (b : Bytes) (hdr : VarHeader) (body : Bytes) :
    Spec.IsFrame b hdr body ↔ VarHeader.take_from_slice b = .ok (some (hdr, body)) := by
  rw [take_iff, Spec.IsFrame, ← encOf_layout, ← List.map_append]
  exact ⟨map_toNat_inj, fun h => by rw [h]⟩

theorem not_isFrame_iff (b : Bytes) :
    (∀ hdr body, ¬ Spec.IsFrame b hdr body) ↔ VarHeader.take_from_slice b = .ok none := by
  constructor
  · intro h
    rcases take_cases b with e | ⟨hdr, r, e⟩
    · exact e
    · exact absurd ((isFrame_iff b hdr r).mpr e) (h hdr r)
  · intro h hdr body hf
    rw [isFrame_iff, h] at hf
    simp at hf

variable {E RE S : Type} {tx_kind : E → WireTxErrorKind} {rx_kind : RE → WireRxErrorKind}
  {hd : VarHeader → Bytes → S → Exec (Option E × S)}

theorem run_error_fatal {e : RE} (h : rx_kind e = .ConnectionClosed) (rest : List (Rx RE)) (s : S) :
    server_run tx_kind rx_kind hd (.error e :: rest) s = .ok (.rx_fatal e rest s) := by
  simp only [server_run, h]

theorem run_error_skip {e : RE} (h : rx_kind e ≠ .ConnectionClosed) (rest : List (Rx RE)) (s : S) :
    server_run tx_kind rx_kind hd (.error e :: rest) s = server_run tx_kind rx_kind hd rest s := by
  cases hk : rx_kind e with
  | ConnectionClosed => exact absurd hk h
  | ReceivedMessageTooLarge => simp only [server_run, hk]
  | Other => simp only [server_run, hk]

theorem run_malformed {b : Bytes} (h : ∀ hdr body, ¬ Spec.IsFrame b hdr body) (rest : List (Rx RE)) (s : S) :
    server_run tx_kind rx_kind hd (.frame b :: rest) s = server_run tx_kind rx_kind hd rest s := by
  rw [not_isFrame_iff] at h
  simp only [server_run, h, Exec.ok_bind]

/-- What happens after a dispatch. -/
def after_handle (tx_kind : E → WireTxErrorKind) (rx_kind : RE → WireRxErrorKind)
    (hd : VarHeader → Bytes → S → Exec (Option E × S)) (rest : List (Rx RE)) (x : Exec (Option E × S)) :
    Exec (RunRes E RE S) :=
  x >>= fun q => match q.1 with
    | none => server_run tx_kind rx_kind hd rest q.2
    | some e =>
      match tx_kind e with
      | .ConnectionClosed => .ok (.tx_fatal e rest q.2)
      | .Other => server_run tx_kind rx_kind hd rest q.2
      | .Timeout => .ok (.tx_fatal e rest q.2)

theorem run_frame {b : Bytes} {hdr : VarHeader} {body : Bytes} (h : Spec.IsFrame b hdr body) (rest : List (Rx RE))
    (s : S) :
    server_run tx_kind rx_kind hd (.frame b :: rest) s =
      after_handle tx_kind rx_kind hd rest (hd hdr body s) := by
  rw [isFrame_iff] at h
  simp only [server_run, h, Exec.ok_bind, after_handle]
  rfl

theorem run_frame_ok {b : Bytes} {hdr : VarHeader} {body : Bytes} (h : Spec.IsFrame b hdr body) (rest : List (Rx RE))
    {s s₁ : S} {r : Option E} (hh : hd hdr body s = .ok (r, s₁)) (hr : ∀ e, r = some e → ¬ Spec.FatalTx (tx_kind e)) :
    server_run tx_kind rx_kind hd (.frame b :: rest) s = server_run tx_kind rx_kind hd rest s₁ := by
  rw [run_frame h, hh, after_handle, Exec.ok_bind]
  cases r with
  | none => rfl
  | some e =>
    have := hr e rfl
    simp only
    cases hk : tx_kind e with
    | ConnectionClosed => exact absurd (Or.inl hk) this
    | Timeout => exact absurd (Or.inr hk) this
    | Other => rfl

theorem run_frame_fatal {b : Bytes} {hdr : VarHeader} {body : Bytes} (h : Spec.IsFrame b hdr body) (rest : List (Rx RE))
    {s s₁ : S} {e : E} (hh : hd hdr body s = .ok (some e, s₁)) (hr : Spec.FatalTx (tx_kind e)) :
    server_run tx_kind rx_kind hd (.frame b :: rest) s = .ok (.tx_fatal e rest s₁) := by
  rw [run_frame h, hh, after_handle, Exec.ok_bind]
  simp only
  rcases hr with hk | hk <;> rw [hk]

theorem run_frame_panic {b : Bytes} {hdr : VarHeader} {body : Bytes} (h : Spec.IsFrame b hdr body) (rest : List (Rx RE))
    {s : S} (hh : hd hdr body s = .panic) :
    server_run tx_kind rx_kind hd (.frame b :: rest) s = .panic := by
  rw [run_frame h, hh, after_handle, Exec.panic_bind]

theorem run_consumed {pre : List (Rx RE)} {fs : List (VarHeader × Bytes)} (hc : Spec.Consumed rx_kind pre fs)
    {s s₁ : S} (hd' : Spec.Dispatched tx_kind hd fs s s₁) (rest : List (Rx RE)) :
    server_run tx_kind rx_kind hd (pre ++ rest) s = server_run tx_kind rx_kind hd rest s₁ := by
  induction hc generalizing s with
  | nil => cases hd'; rfl
  | malformed hm _ ih => rw [List.cons_append, run_malformed hm]; exact ih hd'
  | error he _ ih => rw [List.cons_append, run_error_skip he]; exact ih hd'
  | frame hf _ ih =>
    cases hd' with
    | cons hh hr hds => rw [List.cons_append, run_frame_ok hf _ hh hr]; exact ih hds

/-- The four ways a run can stand. -/
inductive Outcome (tx_kind : E → WireTxErrorKind) (rx_kind : RE → WireRxErrorKind)
    (hd : VarHeader → Bytes → S → Exec (Option E × S)) (rs : List (Rx RE)) (s : S) : Exec (RunRes E RE S) → Prop where
  | waiting {fs s'} : Spec.Consumed rx_kind rs fs → Spec.Dispatched tx_kind hd fs s s' →
      Outcome tx_kind rx_kind hd rs s (.ok (.waiting s'))
  | rx {pre e rest fs s'} : rs = pre ++ .error e :: rest → rx_kind e = .ConnectionClosed →
      Spec.Consumed rx_kind pre fs → Spec.Dispatched tx_kind hd fs s s' →
      Outcome tx_kind rx_kind hd rs s (.ok (.rx_fatal e rest s'))
  | tx {pre b hdr body e rest fs s₁ s'} : rs = pre ++ .frame b :: rest → Spec.IsFrame b hdr body →
      Spec.Consumed rx_kind pre fs → Spec.Dispatched tx_kind hd fs s s₁ →
      hd hdr body s₁ = .ok (some e, s') → Spec.FatalTx (tx_kind e) →
      Outcome tx_kind rx_kind hd rs s (.ok (.tx_fatal e rest s'))
  | panic {pre b hdr body rest fs s₁} : rs = pre ++ .frame b :: rest → Spec.IsFrame b hdr body →
      Spec.Consumed rx_kind pre fs → Spec.Dispatched tx_kind hd fs s s₁ → hd hdr body s₁ = .panic →
      Outcome tx_kind rx_kind hd rs s .panic

theorem run_outcome (rs : List (Rx RE)) (s : S) :
    Outcome tx_kind rx_kind hd rs s (server_run tx_kind rx_kind hd rs s) := by
  induction rs generalizing s with
  | nil => exact .waiting .nil .nil
  | cons r rs ih =>
    cases r with
    | error e =>
      by_cases he : rx_kind e = .ConnectionClosed
      · rw [run_error_fatal he]; exact .rx (pre := []) rfl he .nil .nil
      · rw [run_error_skip he]
        generalize hx : server_run tx_kind rx_kind hd rs s = x
        have hi := ih s
        rw [hx] at hi
        cases hi with
        | waiting a b => exact .waiting (.error he a) b
        | rx h1 h2 h3 h4 => subst h1; exact .rx rfl h2 (.error he h3) h4
        | tx h1 h2 h3 h4 h5 h6 => subst h1; exact .tx rfl h2 (.error he h3) h4 h5 h6
        | panic h1 h2 h3 h4 h5 => subst h1; exact .panic rfl h2 (.error he h3) h4 h5
    | frame b =>
      by_cases hm : ∀ hdr body, ¬ Spec.IsFrame b hdr body
      · rw [run_malformed hm]
        generalize hx : server_run tx_kind rx_kind hd rs s = x
        have hi := ih s
        rw [hx] at hi
        cases hi with
        | waiting a b => exact .waiting (.malformed hm a) b
        | rx h1 h2 h3 h4 => subst h1; exact .rx rfl h2 (.malformed hm h3) h4
        | tx h1 h2 h3 h4 h5 h6 => subst h1; exact .tx rfl h2 (.malformed hm h3) h4 h5 h6
        | panic h1 h2 h3 h4 h5 => subst h1; exact .panic rfl h2 (.malformed hm h3) h4 h5
      · simp only [Classical.not_forall, Classical.not_not] at hm
        obtain ⟨hdr, body, hf⟩ := hm
        cases hh : hd hdr body s with
        | panic => rw [run_frame_panic hf _ hh]; exact .panic (pre := []) rfl hf .nil .nil hh
        | ok q =>
          obtain ⟨r, s₁⟩ := q
          by_cases hr : ∀ e, r = some e → ¬ Spec.FatalTx (tx_kind e)
          · rw [run_frame_ok hf _ hh hr]
            generalize hx : server_run tx_kind rx_kind hd rs s₁ = x
            have hi := ih s₁
            rw [hx] at hi
            cases hi with
            | waiting a b => exact .waiting (.frame hf a) (.cons hh hr b)
            | rx h1 h2 h3 h4 => subst h1; exact .rx rfl h2 (.frame hf h3) (.cons hh hr h4)
            | tx h1 h2 h3 h4 h5 h6 => subst h1; exact .tx rfl h2 (.frame hf h3) (.cons hh hr h4) h5 h6
            | panic h1 h2 h3 h4 h5 => subst h1; exact .panic rfl h2 (.frame hf h3) (.cons hh hr h4) h5
          · simp only [Classical.not_forall, Classical.not_not] at hr
            obtain ⟨e, rfl, hr⟩ := hr
            rw [run_frame_fatal hf _ hh hr]
            exact .tx (pre := []) rfl hf .nil .nil hh hr

end PRpc
