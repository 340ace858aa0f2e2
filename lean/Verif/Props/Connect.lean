import Verif.Spec.Connect
/-! Connecting to a USB device: C79. -/

namespace PRpc.Props

open Spec

theorem first_find {α : Type} (p : α → Bool) (l : List α) (x : α) : l.find? p = some x ↔ First p l x := by
  rw [List.find?_eq_some_iff_append]
  constructor
  · rintro ⟨h, as, bs, h1, h2⟩
    exact ⟨as, bs, h1, h, fun y hy => by simpa using h2 y hy⟩
  · rintro ⟨as, bs, h1, h, h2⟩
    exact ⟨h, as, bs, h1, fun y hy => by simpa using h2 y hy⟩

theorem first_findIdx {α : Type} (p : α → Bool) (l : List α) (i : Nat) :
    l.findIdx? p = some i ↔ ∃ x, l[i]? = some x ∧ p x = true ∧ ∀ j y, j < i → l[j]? = some y → p y = false := by
  rw [List.findIdx?_eq_some_iff_getElem]
  constructor
  · rintro ⟨h, h1, h2⟩
    refine ⟨_, List.getElem?_eq_getElem h, h1, fun j y hj hy => ?_⟩
    obtain ⟨hl, rfl⟩ := List.getElem?_eq_some_iff.mp hy
    simpa using h2 j hj
  · rintro ⟨x, h, h1, h2⟩
    obtain ⟨hl, rfl⟩ := List.getElem?_eq_some_iff.mp h
    exact ⟨hl, h1, fun j hj => by simpa using h2 j _ hj (List.getElem?_eq_getElem (by omega))⟩

/-- What a scan ends with, whatever it began with. -/
structure ScanOk (s0 : Scan) (eps : List EpDesc) (s : Scan) : Prop where
  out : (s.ep_out = s0.ep_out ∧ ∀ e ∈ eps, bulkOut e = false) ∨ ∃ e, Last bulkOut eps e ∧ s.ep_out = some e.address
  in_ : (s.ep_in = s0.ep_in ∧ ∀ e ∈ eps, bulkIn e = false) ∨ ∃ e, Last bulkIn eps e ∧ s.ep_in = some e.address
  mps : (s.mps = none ∧ s0.mps = none ∧ ∀ e ∈ eps, bulkOut e = false) ∨
    ∃ q, s.mps = some q ∧ Least q (s0.mps.toList ++ (eps.filter bulkOut).map (·.max_packet_size))

theorem last_snoc {α : Type} {p : α → Bool} {l : List α} (x : α) (h : p x = true) : Last p (l ++ [x]) x :=
  ⟨l, [], rfl, h, fun _ hy => nomatch hy⟩

theorem last_snoc_ne {α : Type} {p : α → Bool} {l : List α} {y : α} (x : α) (hx : p x = false) (h : Last p l y) :
    Last p (l ++ [x]) y := by
  obtain ⟨pre, post, rfl, h1, h2⟩ := h
  refine ⟨pre, post ++ [x], by simp, h1, fun z hz => ?_⟩
  rcases List.mem_append.mp hz with hz | hz
  · exact h2 z hz
  · cases List.mem_singleton.mp hz
    exact hx

theorem scan_ok (s0 : Scan) (eps : List EpDesc) : ScanOk s0 eps (eps.foldl scan_ep s0) := by
  induction hn : eps.length generalizing eps with
  | zero =>
    cases List.length_eq_zero_iff.mp hn
    refine ⟨.inl ⟨rfl, fun _ h => nomatch h⟩, .inl ⟨rfl, fun _ h => nomatch h⟩, ?_⟩
    cases hm : s0.mps with
    | none => exact .inl ⟨hm, rfl, fun _ h => nomatch h⟩
    | some q => exact .inr ⟨q, hm, by simp [Least]⟩
  | succ n ih =>
    have hne : eps ≠ [] := by intro h; rw [h] at hn; cases hn
    obtain ⟨l, x, rfl⟩ : ∃ l x, eps = l ++ [x] := ⟨_, _, (List.dropLast_concat_getLast hne).symm⟩
    have hl : l.length = n := by simpa using hn
    obtain ⟨h1, h2, h3⟩ := ih l hl
    rw [List.foldl_append]
    generalize l.foldl scan_ep s0 = s at h1 h2 h3
    simp only [List.foldl_cons, List.foldl_nil, scan_ep]
    have keepIn : bulkIn x = false → (s.ep_in = s0.ep_in ∧ ∀ e ∈ l ++ [x], bulkIn e = false) ∨
        ∃ e, Last bulkIn (l ++ [x]) e ∧ s.ep_in = some e.address := by
      intro hx
      rcases h2 with ⟨a, b⟩ | ⟨e, a, b⟩
      · exact .inl ⟨a, fun e he => by rcases List.mem_append.mp he with he | he; exact b e he; cases List.mem_singleton.mp he; exact hx⟩
      · exact .inr ⟨e, last_snoc_ne x hx a, b⟩
    have keepOut : bulkOut x = false → (s.ep_out = s0.ep_out ∧ ∀ e ∈ l ++ [x], bulkOut e = false) ∨
        ∃ e, Last bulkOut (l ++ [x]) e ∧ s.ep_out = some e.address := by
      intro hx
      rcases h1 with ⟨a, b⟩ | ⟨e, a, b⟩
      · exact .inl ⟨a, fun e he => by rcases List.mem_append.mp he with he | he; exact b e he; cases List.mem_singleton.mp he; exact hx⟩
      · exact .inr ⟨e, last_snoc_ne x hx a, b⟩
    have keepMps : bulkOut x = false → (s.mps = none ∧ s0.mps = none ∧ ∀ e ∈ l ++ [x], bulkOut e = false) ∨
        ∃ q, s.mps = some q ∧ Least q (s0.mps.toList ++ ((l ++ [x]).filter bulkOut).map (·.max_packet_size)) := by
      intro hx
      rcases h3 with ⟨a, b, c⟩ | ⟨q, a, b⟩
      · exact .inl ⟨a, b, fun e he => by rcases List.mem_append.mp he with he | he; exact c e he; cases List.mem_singleton.mp he; exact hx⟩
      · exact .inr ⟨q, a, by simpa [List.filter_append, hx] using b⟩
    by_cases hb : x.bulk
    · by_cases ho : x.out
      · have ex : bulkOut x = true := by simp [bulkOut, hb, ho]
        simp only [hb, ho, if_true]
        refine ⟨.inr ⟨x, last_snoc x ex, rfl⟩, keepIn (by simp [bulkIn, ho]), .inr ?_⟩
        refine ⟨_, rfl, ?_⟩
        rcases h3 with ⟨a, b, c⟩ | ⟨q, a, b⟩
        · have : l.filter bulkOut = [] := List.filter_eq_nil_iff.mpr fun e he => by simp [c e he]
          simp [a, b, List.filter_append, this, ex, Least]
        · obtain ⟨b1, b2⟩ := b
          simp only [a, Least, List.filter_append, List.map_append, List.mem_append] at b1 b2 ⊢
          simp only [List.filter_cons, ex, if_true, List.filter_nil, List.map_cons, List.map_nil, List.mem_singleton]
          constructor
          · by_cases hle : q ≤ x.max_packet_size
            · rw [Nat.min_eq_left hle]
              rcases b1 with b1 | b1
              · exact .inl b1
              · exact .inr (.inl b1)
            · rw [Nat.min_eq_right (by omega)]
              exact .inr (.inr rfl)
          · intro y hy
            rcases hy with hy | hy | hy
            · have := b2 y (.inl hy); omega
            · have := b2 y (.inr hy); omega
            · omega
      · simp only [hb, ho, if_true]
        have ex : bulkIn x = true := by simp [bulkIn, hb, ho]
        have eo : bulkOut x = false := by simp [bulkOut, ho]
        exact ⟨keepOut eo, .inr ⟨x, last_snoc x ex, rfl⟩, keepMps eo⟩
    · simp only [hb]
      have ex : bulkIn x = false := by simp [bulkIn, hb]
      have eo : bulkOut x = false := by simp [bulkOut, hb]
      exact ⟨keepOut eo, keepIn ex, keepMps eo⟩

theorem scan_eps_flatten (alts : List (List EpDesc)) : scan_eps alts = alts.flatten.foldl scan_ep ⟨none, none, none⟩ := by
  rw [scan_eps, List.foldl_flatten]

/-- C79: connecting to an interface by number succeeds with exactly this: the interface of that number, its last bulk endpoints in the
two directions, over all its alternate settings, and the least packet size of its bulk OUT endpoints. -/
theorem c79_connected (dev : UsbDev) (n : Nat) (c : Connected) (h : try_from_nusb_and_interface dev n = .ok c) :
    c.dev = dev ∧ dev.opens = true ∧ dev.claims (n % 256) = true ∧ First (fun i => i.number == n % 256) dev.ifaces c.iface ∧
      (∃ o, Last bulkOut c.iface.alts.flatten o ∧ c.ep_out = o.address) ∧ (∃ i, Last bulkIn c.iface.alts.flatten i ∧ c.ep_in = i.address) ∧
      ∃ q, c.mps = some q ∧ Least q ((c.iface.alts.flatten.filter bulkOut).map (·.max_packet_size)) := by
  unfold try_from_nusb_and_interface at h
  split at h
  · cases h
  next h1 =>
  split at h
  · cases h
  next iface h2 =>
  unfold claim_interface at h2
  split at h2
  case isFalse => cases h2
  next h3 =>
  obtain ⟨k1, k2, k3⟩ := scan_ok ⟨none, none, none⟩ iface.alts.flatten
  rw [← scan_eps_flatten] at k1 k2 k3
  simp only at h
  split at h
  · cases h
  next a h4 =>
  split at h
  · cases h
  next b h5 =>
  cases h
  refine ⟨rfl, by simpa using h1, h3, (first_find _ _ _).mp h2, ?_, ?_, ?_⟩
  · rcases k1 with ⟨e, _⟩ | ⟨o, hl, e⟩
    · rw [e] at h4; cases h4
    · rw [e] at h4; cases h4; exact ⟨o, hl, rfl⟩
  · rcases k2 with ⟨e, _⟩ | ⟨o, hl, e⟩
    · rw [e] at h5; cases h5
    · rw [e] at h5; cases h5; exact ⟨o, hl, rfl⟩
  · rcases k3 with ⟨_, _, hno⟩ | ⟨q, e, hq⟩
    · rcases k1 with ⟨e, _⟩ | ⟨o, ⟨pre, post, hl, ho, _⟩, _⟩
      · rw [e] at h4; cases h4
      · have := hno o (by rw [hl]; simp)
        rw [ho] at this
        cases this
    · exact ⟨q, e, by simpa using hq⟩

/-- A device of one interface as postcard-rpc declares it. -/
def exDev : UsbDev := ⟨1, [wire_interface 0x01#8 0x81#8], true, fun _ => true⟩

example : try_from_nusb_and_interface exDev 0 = .ok ⟨exDev, wire_interface 0x01#8 0x81#8, 0x01#8, 0x81#8, some 64⟩ := rfl

/-- C79: it fails exactly when the device cannot be opened, the interface cannot be claimed or does not exist, or a direction has no
bulk endpoint. -/
theorem c79_connect_fails (dev : UsbDev) (n : Nat) : (∃ e, try_from_nusb_and_interface dev n = .error e) ↔
    dev.opens = false ∨ dev.claims (n % 256) = false ∨ (∀ i ∈ dev.ifaces, i.number ≠ n % 256) ∨
      ∃ i, First (fun i => i.number == n % 256) dev.ifaces i ∧
        ((∀ e ∈ i.alts.flatten, bulkOut e = false) ∨ ∀ e ∈ i.alts.flatten, bulkIn e = false) := by
  constructor
  · rintro ⟨e, h⟩
    unfold try_from_nusb_and_interface at h
    split at h
    next h1 => exact .inl (by simpa using h1)
    next h1 =>
    split at h
    next h2 =>
      unfold claim_interface at h2
      split at h2
      next h3 =>
        refine .inr (.inr (.inl fun i hi he => ?_))
        have := List.find?_eq_none.mp h2 i hi
        simp [he] at this
      next h3 => exact .inr (.inl (by simpa using h3))
    next iface h2 =>
    unfold claim_interface at h2
    split at h2
    case isFalse => cases h2
    obtain ⟨k1, k2, _⟩ := scan_ok ⟨none, none, none⟩ iface.alts.flatten
    rw [← scan_eps_flatten] at k1 k2
    refine .inr (.inr (.inr ⟨iface, (first_find _ _ _).mp h2, ?_⟩))
    simp only at h
    split at h
    next h4 =>
      rcases k1 with ⟨_, hno⟩ | ⟨o, _, e⟩
      · exact .inl hno
      · rw [e] at h4; cases h4
    next h4 =>
    split at h
    next h5 =>
      rcases k2 with ⟨_, hno⟩ | ⟨o, _, e⟩
      · exact .inr hno
      · rw [e] at h5; cases h5
    next => cases h
  · intro h
    cases hc : try_from_nusb_and_interface dev n with
    | error e => exact ⟨e, rfl⟩
    | ok c =>
      exfalso
      obtain ⟨_, h1, h2, h3, ⟨o, ⟨_, _, ho, ho', _⟩, _⟩, ⟨i, ⟨_, _, hi, hi', _⟩, _⟩, _⟩ := c79_connected dev n c hc
      rcases h with h | h | h | ⟨f, hf, h⟩
      · rw [h] at h1; cases h1
      · rw [h] at h2; cases h2
      · obtain ⟨pre, post, e, hp, _⟩ := h3
        exact h c.iface (by rw [e]; simp) (by simpa using hp)
      · have e := ((first_find _ _ _).mpr hf).symm.trans ((first_find _ _ _).mpr h3)
        cases e
        rcases h with h | h
        · have := h o (by rw [ho]; simp)
          rw [ho'] at this
          cases this
        · have := h i (by rw [hi]; simp)
          rw [hi'] at this
          cases this

example : try_from_nusb_and_interface exDev 1 = .error .claiming ∧ try_from_nusb_and_interface ⟨1, [⟨0, 0xFF#8, [[]]⟩], true, fun _ => true⟩ 0 = .error .noOut :=
  ⟨rfl, rfl⟩

/-- C79: looking for a device and an interface opens the first device accepted, and of it the interface whose *number* is the place of
the first one accepted in the list. -/
theorem c79_chosen (devices : List UsbDev) (df : UsbDev → Bool) (inf : IfDesc → Bool) (c : Connected) :
    try_new_raw_nusb_with_interface (some devices) df inf = .ok c ↔
      ∃ d k x, First df devices d ∧ d.ifaces[k]? = some x ∧ inf x = true ∧ (∀ j y, j < k → d.ifaces[j]? = some y → inf y = false) ∧
        try_from_nusb_and_interface d k = .ok c := by
  constructor
  · intro h
    unfold try_new_raw_nusb_with_interface at h
    simp only at h
    split at h
    · cases h
    next d h1 =>
    split at h
    · cases h
    next k h2 =>
    obtain ⟨x, a, b, e⟩ := (first_findIdx _ _ _).mp h2
    exact ⟨d, k, x, (first_find _ _ _).mp h1, a, b, e, h⟩
  · rintro ⟨d, k, x, h1, a, b, e, h⟩
    rw [try_new_raw_nusb_with_interface]
    simp only [(first_find _ _ _).mpr h1, (first_findIdx _ _ _).mpr ⟨x, a, b, e⟩, h]

example : First (fun d : UsbDev => d.serial == 1) [⟨0, [], true, fun _ => true⟩, exDev] exDev := ⟨[_], [], rfl, rfl, by simp⟩

/-- C79: without naming an interface the one of class 0xFF is looked for, except on Windows. -/
theorem c79_by_class (devices : Option (List UsbDev)) (df : UsbDev → Bool) :
    try_new_raw_nusb false devices df = try_new_raw_nusb_with_interface devices df fun i => i.cls == 0xFF#8 := by
  cases devices <;> rfl

example : try_new_raw_nusb false (some [exDev]) (fun _ => true) =
    .ok ⟨exDev, wire_interface 0x01#8 0x81#8, 0x01#8, 0x81#8, some 64⟩ := rfl

/-- C79 as stated, the interface: the client uses the first interface accepted of the first device accepted. -/
def C79Interface : Prop :=
  ∀ (devices : List UsbDev) (df : UsbDev → Bool) (inf : IfDesc → Bool) (c : Connected),
    try_new_raw_nusb_with_interface (some devices) df inf = .ok c → First df devices c.dev ∧ First inf c.dev.ifaces c.iface

/-- A device whose second interface has the number 5 and whose third has the number 1. -/
def exGaps : UsbDev :=
  ⟨2, [⟨0, 0x03#8, []⟩, ⟨5, 0xFF#8, [[⟨true, true, 0x01#8, 64⟩, ⟨true, false, 0x81#8, 64⟩]]⟩,
    ⟨1, 0x08#8, [[⟨true, true, 0x02#8, 64⟩, ⟨true, false, 0x82#8, 64⟩]]⟩], true, fun _ => true⟩

/-- C79 is false of the interface: its place in the list is taken for its number. -/
theorem c79_interface_false : ¬ C79Interface := by
  intro h
  obtain ⟨_, pre, post, _, hp, _⟩ := h [exGaps] (fun _ => true) (fun i => i.cls == 0xFF#8)
    ⟨exGaps, ⟨1, 0x08#8, [[⟨true, true, 0x02#8, 64⟩, ⟨true, false, 0x82#8, 64⟩]]⟩, 0x02#8, 0x82#8, some 64⟩ rfl
  revert hp
  decide

/-- C79, the interface, what holds: on devices that list at most 256 interfaces, each at the place of its number, the client uses the
first interface accepted of the first device accepted.  Missing: other devices. -/
theorem c79_interface_partial (devices : List UsbDev)
    (hn : ∀ d ∈ devices, d.ifaces.length ≤ 256 ∧ ∀ (k : Nat) (x : IfDesc), d.ifaces[k]? = some x → x.number = k)
    (df : UsbDev → Bool) (inf : IfDesc → Bool) (c : Connected) (h : try_new_raw_nusb_with_interface (some devices) df inf = .ok c) :
    First df devices c.dev ∧ First inf c.dev.ifaces c.iface := by
  obtain ⟨d, k, x, h1, h2, h3, h4, h5⟩ := (c79_chosen devices df inf c).mp h
  obtain ⟨e1, _, _, ⟨pre, post, e4, e5, e6⟩, _⟩ := c79_connected d k c h5
  have hd : d ∈ devices := by obtain ⟨p, q, e, _⟩ := h1; rw [e]; simp
  obtain ⟨hl, hnum⟩ := hn d hd
  obtain ⟨hk, hx⟩ := List.getElem?_eq_some_iff.mp h2
  have hmod : k % 256 = k := Nat.mod_eq_of_lt (by omega)
  rw [hmod] at e5
  have hat : d.ifaces[pre.length]? = some c.iface := by rw [e4]; simp
  have hcn := hnum _ _ hat
  have : pre.length = k := by rw [← hcn]; simpa using e5
  rw [this] at hat
  rw [hat] at h2
  cases h2
  rw [e1]
  refine ⟨h1, pre, post, e4, h3, fun y hy => ?_⟩
  obtain ⟨j, hj, rfl⟩ := List.mem_iff_getElem.mp hy
  exact h4 j _ (by omega) (by rw [e4, List.getElem?_append_left hj, List.getElem?_eq_getElem hj])

example : exDev.ifaces.length ≤ 256 ∧ ∀ (k : Nat) (x : IfDesc), exDev.ifaces[k]? = some x → x.number = k := by
  refine ⟨by decide, fun k x h => ?_⟩
  match k, h with
  | 0, h => cases h; rfl
  | k + 1, h => cases h

/-- C79 as stated, the endpoints: those of the setting in use, with the packet size of the one sent to. -/
def C79Endpoints : Prop := ∀ (dev : UsbDev) (n : Nat) (c : Connected), try_from_nusb_and_interface dev n = .ok c → GoodEndpoints c

/-- C79 is false of the endpoints: with two bulk OUT endpoints the last is used with the packet size of the other. -/
theorem c79_endpoints_false : ¬ C79Endpoints := by
  intro h
  obtain ⟨eps, rest, e, ⟨o, ho, ho1, ho2, ho3⟩, _⟩ :=
    h ⟨3, [⟨0, 0xFF#8, [[⟨true, true, 0x01#8, 64⟩, ⟨true, true, 0x02#8, 512⟩, ⟨true, false, 0x81#8, 64⟩]]⟩], true, fun _ => true⟩ 0
      ⟨_, ⟨0, 0xFF#8, [[⟨true, true, 0x01#8, 64⟩, ⟨true, true, 0x02#8, 512⟩, ⟨true, false, 0x81#8, 64⟩]]⟩, 0x02#8, 0x81#8, some 64⟩ rfl
  cases e
  simp only [List.mem_cons, List.not_mem_nil, or_false] at ho
  rcases ho with rfl | rfl | rfl
  · revert ho2; decide
  · revert ho3; decide
  · revert ho1; decide

/-- C79 is false of the endpoints also with one for each direction: those of a setting that is not in use are used. -/
theorem c79_alternate_setting_false : ¬ ∀ (dev : UsbDev) (n : Nat) (c : Connected),
    try_from_nusb_and_interface dev n = .ok c → (∀ i ∈ dev.ifaces, ∀ eps ∈ i.alts, (eps.filter bulkOut).length ≤ 1) → GoodEndpoints c := by
  intro h
  obtain ⟨eps, rest, e, ⟨o, ho, _⟩, _⟩ :=
    h ⟨3, [⟨0, 0xFF#8, [[], [⟨true, true, 0x01#8, 64⟩, ⟨true, false, 0x81#8, 64⟩]]⟩], true, fun _ => true⟩ 0
      ⟨_, ⟨0, 0xFF#8, [[], [⟨true, true, 0x01#8, 64⟩, ⟨true, false, 0x81#8, 64⟩]]⟩, 0x01#8, 0x81#8, some 64⟩ rfl (by decide)
  cases e
  cases ho

/-- C79, the endpoints, what holds: of an interface with one setting and one bulk OUT endpoint they are used as they should.  Missing:
interfaces with several settings or several bulk OUT endpoints. -/
theorem c79_endpoints_partial (dev : UsbDev) (n : Nat) (c : Connected) (h : try_from_nusb_and_interface dev n = .ok c)
    (eps : List EpDesc) (h1 : c.iface.alts = [eps]) (h2 : (eps.filter bulkOut).length ≤ 1) : GoodEndpoints c := by
  obtain ⟨_, _, _, _, ⟨o, ⟨p1, q1, eo, ho, _⟩, ao⟩, ⟨i, ⟨p2, q2, ei, hi, _⟩, ai⟩, q, hq, hq1, _⟩ := c79_connected dev n c h
  rw [h1] at eo ei hq1
  have ef : [eps].flatten = eps := by simp
  rw [ef] at eo ei hq1
  have hmo : o ∈ eps.filter bulkOut := List.mem_filter.mpr ⟨by rw [eo]; simp, ho⟩
  refine ⟨eps, [], h1, ⟨o, by rw [eo]; simp, ho, ao.symm, ?_⟩, i, by rw [ei]; simp, hi, ai.symm⟩
  obtain ⟨e, he, rfl⟩ := List.mem_map.mp hq1
  rw [hq]
  match hf : eps.filter bulkOut, h2, hmo, he with
  | [z], _, hmo, he =>
    rw [List.mem_singleton.mp hmo, List.mem_singleton.mp he]
  | _ :: _ :: _, h2, _, _ => simp at h2

example : (wire_interface 0x01#8 0x81#8).alts = [[⟨true, true, 0x01#8, 64⟩, ⟨true, false, 0x81#8, 64⟩]] := rfl

theorem numbered_at (k : Nat) (more : List (Byte × List (List EpDesc))) (j : Nat) (x : IfDesc) (h : (numbered k more)[j]? = some x) :
    x.number = k + j := by
  induction more generalizing k j with
  | nil => cases h
  | cons m more ih =>
    cases j with
    | zero => cases h; rfl
    | succ j =>
      have := ih (k + 1) j h
      omega

/-- C79: a device built on postcard-rpc's USB server, whatever interfaces its application adds, is connected to through the interface of
the server, on every system, with its two endpoints and their packet size; and it lists its interfaces by number. -/
theorem c79_own_devices (out_addr in_addr : Byte) (more : List (Byte × List (List EpDesc))) (d : UsbDev)
    (hd : d.ifaces = init_interfaces out_addr in_addr more) (ho : d.opens = true) (hc : d.claims 0 = true)
    (devices : List UsbDev) (df : UsbDev → Bool) (h : First df devices d) :
    (∀ windows, try_new_raw_nusb windows (some devices) df = .ok ⟨d, ⟨0, 0xFF#8, [[⟨true, true, out_addr, 64⟩, ⟨true, false, in_addr, 64⟩]]⟩, out_addr, in_addr, some 64⟩) ∧
      (∀ c, try_new_raw_nusb false (some devices) df = .ok c → GoodEndpoints c) ∧
      ∀ (k : Nat) (x : IfDesc), d.ifaces[k]? = some x → x.number = k := by
  have h0 : try_from_nusb_and_interface d 0 =
      .ok ⟨d, ⟨0, 0xFF#8, [[⟨true, true, out_addr, 64⟩, ⟨true, false, in_addr, 64⟩]]⟩, out_addr, in_addr, some 64⟩ := by
    simp [try_from_nusb_and_interface, ho, claim_interface, hc, hd, init_interfaces, wire_interface, scan_eps, scan_ep]
  have h1 : ∀ windows, try_new_raw_nusb windows (some devices) df =
      .ok ⟨d, ⟨0, 0xFF#8, [[⟨true, true, out_addr, 64⟩, ⟨true, false, in_addr, 64⟩]]⟩, out_addr, in_addr, some 64⟩ := by
    intro w
    have hi : d.ifaces.findIdx? (fun i => i.cls == 0xFF#8) = some 0 := by
      simp [hd, init_interfaces, wire_interface, List.findIdx?_cons]
    cases w <;> simp [try_new_raw_nusb, (first_find _ _ _).mpr h, hi, h0]
  refine ⟨h1, fun c hcn => ?_, fun k x hk => ?_⟩
  · rw [h1] at hcn
    cases hcn
    exact ⟨_, [], rfl, ⟨⟨true, true, out_addr, 64⟩, by simp, rfl, rfl, rfl⟩, ⟨true, false, in_addr, 64⟩, by simp, rfl, rfl⟩
  · rw [hd, init_interfaces] at hk
    cases k with
    | zero => cases hk; rfl
    | succ k =>
      have := numbered_at 1 more k x hk
      omega

example : exDev.ifaces = init_interfaces 0x01#8 0x81#8 [] ∧ First (fun _ => true) [exDev] exDev := ⟨rfl, [], [], rfl, rfl, by simp⟩

/-- C79 for WebUSB: the device used is the first of this vendor among those paired, without asking; if there is none the user is asked,
and what they pick is used. -/
theorem c79_webusb (paired : List WebDev) (ask : BitVec 16 → Option WebDev) (vendor : BitVec 16) (n : Byte) :
    (∀ d, First (fun d => d.vendor_id == vendor) paired d → webusb_new paired ask vendor n = (false, if d.opens = true ∧ d.claims n = true then some d else none)) ∧
      ((∀ d ∈ paired, d.vendor_id ≠ vendor) → (webusb_new paired ask vendor n).1 = true ∧
        ∀ d, (webusb_new paired ask vendor n).2 = some d ↔ ask vendor = some d ∧ d.opens = true ∧ d.claims n = true) := by
  constructor
  · rintro d ⟨pre, post, rfl, h1, h2⟩
    have e : ((pre ++ d :: post).filter fun d => d.vendor_id == vendor)[0]? = some d := by
      rw [List.filter_append, List.filter_eq_nil_iff.mpr fun y hy => by simp [h2 y hy], List.nil_append, List.filter_cons, if_pos h1]
      rfl
    have hl : (pre ++ d :: post).length > 0 := by simp; omega
    simp only [webusb_new, if_pos hl, e]
    by_cases a : d.opens = true <;> by_cases b : d.claims n = true <;> simp [a, b]
  · intro h
    have e : (paired.filter fun d => d.vendor_id == vendor) = [] :=
      List.filter_eq_nil_iff.mpr fun y hy => by simpa using h y hy
    have e2 : (if paired.length > 0 then (paired.filter fun d => d.vendor_id == vendor)[0]? else none) = none := by
      rw [e]; split <;> rfl
    simp only [webusb_new, e2]
    cases ask vendor with
    | none => simp
    | some d =>
      refine ⟨rfl, fun d' => ?_⟩
      by_cases a : d.opens = true <;> by_cases b : d.claims n = true <;> simp [a, b]
      · intro e; subst e; exact ⟨a, b⟩
      · rintro rfl; simp [b]
      · rintro rfl; simp [a]
      · rintro rfl; simp [a]

example : First (fun d : WebDev => d.vendor_id == 7#16) [⟨0, 3#16, true, fun _ => true⟩, ⟨1, 7#16, true, fun _ => true⟩] ⟨1, 7#16, true, fun _ => true⟩ :=
  ⟨[_], [], rfl, rfl, by decide⟩

end PRpc.Props
