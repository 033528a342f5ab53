import Verif.Model.LibC
import Verif.Spec.LibC
import Mathlib.Tactic.Ring
import Mathlib.Tactic.Linarith
import Mathlib.Data.List.Infix
/-
Lemmas about the model of the C library functions.
-/
namespace Gotcha.LibC
open Gotcha Gotcha.Spec.LibC

theorem off_zero (p : Addr) : off p 0 = p := by
  show p + BitVec.ofNat 64 0 = p
  exact BitVec.add_zero p

theorem off_add (p : Addr) (i j : Nat) : off (off p i) j = off p (i + j) := by
  unfold off
  rw [BitVec.add_assoc, BitVec.ofNat_add]

theorem off_succ (p : Addr) (i : Nat) : off p (i + 1) = off p i + 1 := by
  rw [← off_add]; rfl

theorem off_inj {p : Addr} {i j : Nat} (hi : i < 2 ^ 64) (hj : j < 2 ^ 64)
    (h : off p i = off p j) : i = j := by
  unfold off at h
  have h1 : BitVec.ofNat 64 i = BitVec.ofNat 64 j := by
    have := congrArg (fun x => x - p) h
    simpa [BitVec.add_comm p] using this
  have h2 := congrArg BitVec.toNat h1
  simp only [BitVec.toNat_ofNat] at h2
  rwa [Nat.mod_eq_of_lt hi, Nat.mod_eq_of_lt hj] at h2

theorem off_wrap (p : Addr) (i : Nat) : off p (i + 2 ^ 64) = off p i := by
  unfold off
  rw [show BitVec.ofNat 64 (i + 2 ^ 64) = BitVec.ofNat 64 i from
    BitVec.eq_of_toNat_eq (by simp only [BitVec.toNat_ofNat]; omega)]

theorem schar_inj {x y : UInt8} (h : schar x = schar y) : x = y := by
  unfold schar at h
  have h1 := BitVec.eq_of_toInt_eq h
  have h2 := congrArg BitVec.toNat h1
  simp only [BitVec.toNat_ofNat] at h2
  have := x.toNat_lt
  have := y.toNat_lt
  rw [Nat.mod_eq_of_lt (by omega), Nat.mod_eq_of_lt (by omega)] at h2
  exact UInt8.toNat_inj.mp h2

theorem load_some {m : Mem} {p : Addr} {b : UInt8} (h : m p = some b) : load m p = .ok b := by
  unfold load; rw [h]

theorem load_none {m : Mem} {p : Addr} (h : m p = none) : load m p = .error .outOfBounds := by
  unfold load; rw [h]

end Gotcha.LibC

namespace Gotcha.Spec.LibC
open Gotcha Gotcha.LibC

/-! ### C strings -/

theorem CStr.char {m : Memory} : ∀ {s : Name} {p : Addr}, CStr m p s → ∀ i (h : i < s.length),
    m (off p i) = some s[i] ∧ s[i] ≠ 0
  | [], _, _, i, hi => absurd hi (Nat.not_lt_zero i)
  | c :: s, p, ⟨h0, h1, h2⟩, 0, _ => by rw [off_zero]; exact ⟨h1, h0⟩
  | c :: s, p, ⟨h0, h1, h2⟩, i + 1, hi => by
    have := CStr.char h2 i (by simpa using hi)
    rw [show off p (i + 1) = off (p + 1) i by
      rw [Nat.add_comm, ← off_add]; rfl]
    simpa using this

theorem CStr.nul {m : Memory} : ∀ {s : Name} {p : Addr}, CStr m p s → m (off p s.length) = some 0
  | [], p, h => by rw [List.length_nil, off_zero]; exact h
  | c :: s, p, ⟨_, _, h2⟩ => by
    have := CStr.nul h2
    rwa [List.length_cons, Nat.add_comm, ← off_add]

theorem cstr_of {m : Memory} : ∀ {s : Name} {p : Addr},
    (∀ i (h : i < s.length), m (off p i) = some s[i] ∧ s[i] ≠ 0) → m (off p s.length) = some 0 →
    CStr m p s
  | [], p, _, h => by rw [List.length_nil, off_zero] at h; exact h
  | c :: s, p, h, hn => by
    refine ⟨(h 0 (by simp)).2, ?_, cstr_of ?_ ?_⟩
    · have := (h 0 (by simp)).1
      rwa [off_zero] at this
    · intro i hi
      have := h (i + 1) (by simpa using hi)
      rw [show off p (i + 1) = off (p + 1) i by
        rw [Nat.add_comm, ← off_add]; rfl] at this
      simpa using this
    · rw [List.length_cons, Nat.add_comm, ← off_add] at hn
      exact hn

/-- No string is longer than the address space. -/
theorem CStr.short {m : Memory} {s : Name} {p : Addr} (h : CStr m p s) : s.length < 2 ^ 64 := by
  by_contra hc
  have hlt : s.length - 2 ^ 64 < s.length := by omega
  have h1 := h.char (s.length - 2 ^ 64) hlt
  have h2 := h.nul
  have h3 := off_wrap p (s.length - 2 ^ 64)
  rw [Nat.sub_add_cancel (by omega)] at h3
  rw [h3, h1.1] at h2
  exact h1.2 (Option.some.inj h2)

theorem CStr.drop {m : Memory} {s : Name} {p : Addr} (h : CStr m p s) :
    ∀ i ≤ s.length, CStr m (off p i) (s.drop i) := by
  intro i hi
  apply cstr_of
  · intro j hj
    rw [List.length_drop] at hj
    rw [off_add, List.getElem_drop]
    exact h.char (i + j) (by omega)
  · rw [off_add, List.length_drop, Nat.add_sub_cancel' hi]
    exact h.nul

theorem CStr.seen {m : Memory} : ∀ {s : Name} {p : Addr} (n : Nat), CStr m p s →
    Seen m p n (s.take n)
  | _, _, 0, _ => by simp [Seen]
  | [], _, n + 1, h => h
  | _ :: _, _, n + 1, ⟨h0, h1, h2⟩ => ⟨h0, h1, CStr.seen n h2⟩

/-- The string at an address is determined by the memory. -/
theorem CStr.unique {m : Memory} : ∀ {s t : Name} {p : Addr}, CStr m p s → CStr m p t → s = t
  | [], [], _, _, _ => rfl
  | [], c :: t, p, h, ⟨h0, h1, _⟩ => absurd (Option.some.inj (h1.symm.trans h)) h0
  | c :: s, [], p, ⟨h0, h1, _⟩, h => absurd (Option.some.inj (h1.symm.trans h)) h0
  | c :: s, d :: t, p, ⟨_, h1, h2⟩, ⟨_, g1, g2⟩ => by
    rw [Option.some.inj (h1.symm.trans g1), CStr.unique h2 g2]

end Gotcha.Spec.LibC

namespace Gotcha.LibC
open Gotcha Gotcha.Spec.LibC

/-! ### Lengths -/

theorem strlenLoop_spec {m : Mem} {p : Addr} : ∀ (s : Name) (n i : Nat), s.length < n →
    CStr m (off p i) s → strlenLoop m p n i = .ok (i + s.length)
  | [], n + 1, i, _, h => by
    simp [strlenLoop, load_some (show m (off p i) = some 0 from h)]
  | c :: s, n + 1, i, hn, ⟨h0, h1, h2⟩ => by
    rw [strlenLoop, load_some h1]
    simp only [if_neg h0]
    rw [← off_succ] at h2
    rw [strlenLoop_spec s n (i + 1) (by simpa using hn) h2, List.length_cons]
    congr 1; omega

theorem strlen_spec {m : Mem} {p : Addr} {s : Name} (h : CStr m p s) :
    strlen m p = .ok s.length := by
  have := strlenLoop_spec s (2 ^ 64) 0 h.short (p := p) (by rw [off_zero]; exact h)
  rw [Nat.zero_add] at this
  exact this

theorem strnlenLoop_spec {m : Mem} {p : Addr} {max : Nat} : ∀ (s : Name) (n i : Nat),
    s.length < n → i ≤ max → CStr m (off p i) s →
    strnlenLoop m p max n i = .ok (Nat.min (i + s.length) max)
  | [], n + 1, i, _, hm, h => by
    simp [strnlenLoop, load_some (show m (off p i) = some 0 from h)]
    exact hm
  | c :: s, n + 1, i, hn, hm, ⟨h0, h1, h2⟩ => by
    rw [strnlenLoop, load_some h1]
    simp only [List.length_cons] at hn ⊢
    by_cases hi : i < max
    · simp only [if_pos (show c ≠ 0 ∧ i < max from ⟨h0, hi⟩)]
      rw [← off_succ] at h2
      rw [strnlenLoop_spec s n (i + 1) (by omega) (by omega) h2]
      congr 2; omega
    · simp only [if_neg (show ¬ (c ≠ 0 ∧ i < max) from fun h => hi h.2)]
      congr 1
      show i = min (i + (s.length + 1)) max
      omega

/-- `strnlen` only needs `max + 1` readable bytes. -/
theorem strnlenLoop_bytes {m : Mem} {p : Addr} {max : Nat} : ∀ (n i k : Nat), k < n → i + k = max →
    (∀ j, i ≤ j → j < max → ∃ c, m (off p j) = some c ∧ c ≠ 0) →
    strnlenLoop m p max n i =
      match m (off p max) with
      | none => .error .outOfBounds
      | some _ => .ok max
  | n + 1, i, 0, _, hk, _ => by
    have : i = max := by omega
    subst this
    rw [strnlenLoop]
    cases h : m (off p i) with
    | none => rw [load_none h]
    | some c => rw [load_some h]; simp
  | n + 1, i, k + 1, hn, hk, h => by
    obtain ⟨c, hc, h0⟩ := h i (le_refl i) (by omega)
    rw [strnlenLoop, load_some hc]
    simp only [if_pos (show c ≠ 0 ∧ i < max from ⟨h0, by omega⟩)]
    exact strnlenLoop_bytes n (i + 1) k (by omega) (by omega) (fun j h1 h2 => h j (by omega) h2)

/-! ### Comparison -/

theorem strncmpLoop_spec {m : Mem} {p q : Addr} : ∀ (n i : Nat) (s t : Name),
    Seen m (off p i) n s → Seen m (off q i) n t →
    ∃ r, strncmpLoop m p q n i = .ok r ∧ (r = 0 ↔ s = t)
  | 0, i, s, t, hs, ht => ⟨0, rfl, by simp [show s = [] from hs, show t = [] from ht]⟩
  | n + 1, i, [], [], hs, ht => by
    refine ⟨0, ?_, by simp⟩
    simp [strncmpLoop, load_some (show m (off p i) = some 0 from hs),
      load_some (show m (off q i) = some 0 from ht)]
  | n + 1, i, [], d :: t, hs, ⟨d0, d1, _⟩ => by
    refine ⟨1, ?_, by simp⟩
    simp [strncmpLoop, load_some (show m (off p i) = some 0 from hs), load_some d1, d0]
  | n + 1, i, c :: s, [], ⟨c0, c1, _⟩, ht => by
    refine ⟨schar c - schar 0, ?_, ?_⟩
    · simp [strncmpLoop, load_some (show m (off q i) = some 0 from ht), load_some c1, c0]
    · constructor
      · intro h
        exact absurd (schar_inj (by omega)) c0
      · intro h; cases h
  | n + 1, i, c :: s, d :: t, ⟨c0, c1, c2⟩, ⟨d0, d1, d2⟩ => by
    by_cases h : c = d
    · subst h
      rw [← off_succ] at c2 d2
      obtain ⟨r, h1, h2⟩ := strncmpLoop_spec n (i + 1) s t c2 d2
      refine ⟨r, ?_, by rw [h2]; simp⟩
      simp [strncmpLoop, load_some c1, load_some d1, c0, h1]
    · refine ⟨schar c - schar d, ?_, ?_⟩
      · simp [strncmpLoop, load_some c1, load_some d1, c0, h]
      · constructor
        · intro h'
          exact absurd (schar_inj (by omega)) h
        · intro h'
          exact absurd (List.cons.inj h').1 h

theorem strcmpLoop_spec {m : Mem} {p q : Addr} : ∀ (s t : Name) (n i : Nat), s.length < n →
    CStr m (off p i) s → CStr m (off q i) t →
    ∃ r, strcmpLoop m p q n i = .ok r ∧ (r = 0 ↔ s = t)
  | [], [], n + 1, i, _, hs, ht => by
    refine ⟨0, ?_, by simp⟩
    simp [strcmpLoop, load_some (show m (off p i) = some 0 from hs),
      load_some (show m (off q i) = some 0 from ht)]
  | [], d :: t, n + 1, i, _, hs, ⟨d0, d1, _⟩ => by
    refine ⟨1, ?_, by simp⟩
    simp [strcmpLoop, load_some (show m (off p i) = some 0 from hs), load_some d1, d0]
  | c :: s, [], n + 1, i, _, ⟨c0, c1, _⟩, ht => by
    refine ⟨schar c - schar 0, ?_, ?_⟩
    · simp [strcmpLoop, load_some (show m (off q i) = some 0 from ht), load_some c1, c0]
    · constructor
      · intro h
        exact absurd (schar_inj (by omega)) c0
      · intro h; cases h
  | c :: s, d :: t, n + 1, i, hn, ⟨c0, c1, c2⟩, ⟨d0, d1, d2⟩ => by
    by_cases h : c = d
    · subst h
      rw [← off_succ] at c2 d2
      obtain ⟨r, h1, h2⟩ := strcmpLoop_spec s t n (i + 1) (by simpa using hn) c2 d2
      refine ⟨r, ?_, by rw [h2]; simp⟩
      simp [strcmpLoop, load_some c1, load_some d1, c0, h1]
    · refine ⟨schar c - schar d, ?_, ?_⟩
      · simp [strcmpLoop, load_some c1, load_some d1, c0, h]
      · constructor
        · intro h'
          exact absurd (schar_inj (by omega)) h
        · intro h'
          exact absurd (List.cons.inj h').1 h

/-! ### Substring search -/

theorem strstrInner_spec {m : Mem} {hay nee : Addr} {i : Nat} : ∀ (s h : Name) (n j : Nat),
    s.length < n → CStr m (off nee j) s → CStr m (off hay (i + j)) h →
    strstrInner m hay nee i n j =
      .ok (if s <+: h then some true else if h.length < s.length ∧ h <+: s then some false else none)
  | [], h, n + 1, j, _, hs, _ => by
    simp [strstrInner, load_some (show m (off nee j) = some 0 from hs)]
  | c :: s, [], n + 1, j, _, ⟨c0, c1, _⟩, hh => by
    simp [strstrInner, load_some c1, c0, load_some (show m (off hay (i + j)) = some 0 from hh)]
  | c :: s, d :: h, n + 1, j, hn, ⟨c0, c1, c2⟩, ⟨d0, d1, d2⟩ => by
    by_cases hcd : c = d
    · subst hcd
      rw [← off_succ] at c2 d2
      rw [strstrInner, load_some c1]
      simp only [if_neg c0, load_some d1, ne_eq, not_true_eq_false, if_false]
      rw [strstrInner_spec s h n (j + 1) (by simpa using hn) c2 d2]
      simp [List.cons_prefix_cons]
    · rw [strstrInner, load_some c1]
      simp only [if_neg c0, load_some d1, if_neg d0, ne_eq, hcd, not_false_eq_true, if_true]
      simp [List.cons_prefix_cons, hcd, Ne.symm hcd]

theorem strstrLoop_spec {m : Mem} {hay nee : Addr} {c : UInt8} {s : Name}
    (hs : CStr m nee (c :: s)) (hl : s.length + 1 < 2 ^ 31) : ∀ (h : Name) (n i : Nat),
    h.length < n → CStr m (off hay i) h →
    ∃ r, strstrLoop m hay nee c n i = .ok r ∧
      (r = none → ¬ (c :: s) <:+: h) ∧
      (∀ q, r = some q → ∃ k, q = off nee (i + k) ∧ (c :: s) <+: h.drop k ∧
        ∀ j < k, ¬ (c :: s) <+: h.drop j)
  | [], n + 1, i, _, hh => by
    refine ⟨none, ?_, ?_, by simp⟩
    · simp [strstrLoop, load_some (show m (off hay i) = some 0 from hh)]
    · simp
  | d :: h, n + 1, i, hn, ⟨d0, d1, d2⟩ => by
    rw [← off_succ] at d2
    have ih := strstrLoop_spec hs hl h n (i + 1) (by simpa using hn) d2
    obtain ⟨r, hr, hr1, hr2⟩ := ih
    -- going on to the next position
    have goon : ¬ (c :: s) <+: (d :: h) → ∃ r', (Except.ok r : Except Fault (Option Addr)) = .ok r' ∧
        (r' = none → ¬ (c :: s) <:+: (d :: h)) ∧
        (∀ q, r' = some q → ∃ k, q = off nee (i + k) ∧ (c :: s) <+: (d :: h).drop k ∧
          ∀ j < k, ¬ (c :: s) <+: (d :: h).drop j) := by
      intro hne
      refine ⟨r, rfl, ?_, ?_⟩
      · intro hnone hin
        rcases List.infix_cons_iff.mp hin with hp | hi
        · exact hne hp
        · exact hr1 hnone hi
      · intro q hq
        obtain ⟨k, h1, h2, h3⟩ := hr2 q hq
        refine ⟨k + 1, by rw [h1]; congr 1; omega, h2, ?_⟩
        intro j hj
        cases j with
        | zero => exact hne
        | succ j => exact h3 j (by omega)
    rw [strstrLoop, load_some d1]
    simp only [if_neg d0]
    by_cases hcd : d = c
    · subst hcd
      simp only [ne_eq, not_true_eq_false, if_false]
      rw [strstrInner_spec s h (2 ^ 31 - 1) 1 (by omega)
        (by rw [show off nee 1 = nee + 1 from rfl]; exact hs.2.2) d2]
      by_cases hp : s <+: h
      · simp only [if_pos hp]
        refine ⟨_, rfl, by simp, ?_⟩
        intro q hq
        refine ⟨0, (Option.some.inj hq).symm, ?_, by simp⟩
        simpa [List.cons_prefix_cons] using hp
      · have hne : ¬ (d :: s) <+: (d :: h) := by simpa [List.cons_prefix_cons] using hp
        simp only [if_neg hp]
        by_cases he : h.length < s.length ∧ h <+: s
        · simp only [if_pos he]
          refine ⟨none, rfl, ?_, by simp⟩
          intro _ hin
          have := hin.length_le
          simp at this
          omega
        · simp only [if_neg he]
          rw [hr]
          exact goon hne
    · simp only [ne_eq, hcd, not_false_eq_true, if_true]
      rw [hr]
      exact goon (by simp [List.cons_prefix_cons, Ne.symm hcd])

/-! ### Memory -/

theorem store_ok {m : Mem} {p : Addr} {b : UInt8} (h : m p ≠ none) :
    store m p b = .ok (upd m p (some b)) := by
  unfold store
  cases hm : m p with
  | none => exact absurd hm h
  | some _ => rfl

theorem store_none {m : Mem} {p : Addr} {b : UInt8} (h : m p = none) :
    store m p b = .error .outOfBounds := by
  unfold store; rw [h]

theorem memcpyLoop_spec {dest src : Addr} : ∀ (n i : Nat) (m : Mem), i + n ≤ 2 ^ 64 →
    (∀ j, i ≤ j → j < i + n → m (off src j) ≠ none) →
    (∀ j, i ≤ j → j < i + n → m (off dest j) ≠ none) →
    (∀ j k, i ≤ j → j < k → k < i + n → off dest j ≠ off src k) →
    ∃ m', memcpyLoop m dest src n i = .ok m' ∧
      (∀ j, i ≤ j → j < i + n → m' (off dest j) = m (off src j)) ∧
      (∀ a, (∀ j, i ≤ j → j < i + n → a ≠ off dest j) → m' a = m a)
  | 0, i, m, _, _, _, _ => ⟨m, rfl, by intros; omega, fun _ _ => rfl⟩
  | n + 1, i, m, hn, hs, hd, hdis => by
    cases hsi : m (off src i) with
    | none => exact absurd hsi (hs i (le_refl _) (by omega))
    | some b =>
      have hdi := hd i (le_refl _) (by omega)
      have hmap : ∀ a, m a ≠ none → upd m (off dest i) (some b) a ≠ none := by
        intro a ha
        unfold upd
        split
        · simp
        · exact ha
      obtain ⟨m', h1, h2, h3⟩ := memcpyLoop_spec n (i + 1) (upd m (off dest i) (some b)) (by omega)
        (fun j hj hj' => hmap _ (hs j (by omega) (by omega)))
        (fun j hj hj' => hmap _ (hd j (by omega) (by omega)))
        (fun j k hj hjk hk => hdis j k (by omega) hjk (by omega))
      refine ⟨m', ?_, ?_, ?_⟩
      · rw [memcpyLoop, load_some hsi]
        simp only [store_ok hdi]
        exact h1
      · intro j hj hj'
        by_cases hji : j = i
        · subst hji
          rw [h3 (off dest j) (fun k hk hk' he => by
            have := off_inj (by omega) (by omega) he
            omega)]
          simp [upd, hsi]
        · rw [h2 j (by omega) (by omega)]
          have : off src j ≠ off dest i := Ne.symm (hdis i j (le_refl _) (by omega) (by omega))
          simp [upd, this]
      · intro a ha
        rw [h3 a (fun j hj hj' => ha j (by omega) (by omega))]
        have : a ≠ off dest i := ha i (le_refl _) (by omega)
        simp [upd, this]

/-- A copy that meets an unmapped byte faults. -/
theorem memcpyLoop_fault {dest src : Addr} : ∀ (n i : Nat) (m : Mem) (k : Nat), i ≤ k → k < i + n →
    (m (off src k) = none ∨ m (off dest k) = none) →
    memcpyLoop m dest src n i = .error .outOfBounds
  | 0, i, m, k, h1, h2, _ => by omega
  | n + 1, i, m, k, h1, h2, h => by
    rw [memcpyLoop]
    cases hsi : m (off src i) with
    | none => rw [load_none hsi]
    | some b =>
      rw [load_some hsi]
      cases hdi : m (off dest i) with
      | none => simp only [store_none hdi]
      | some b' =>
        simp only [store_ok (m := m) (p := off dest i) (b := b) (by simp [hdi])]
        have hk : k ≠ i := by
          rintro rfl
          rcases h with h | h
          · rw [hsi] at h; cases h
          · rw [hdi] at h; cases h
        have keep : ∀ a, m a = none → upd m (off dest i) (some b) a = none := by
          intro a ha
          unfold upd
          split
          · next he => rw [he, hdi] at ha; cases ha
          · exact ha
        exact memcpyLoop_fault n (i + 1) _ k (by omega) (by omega)
          (h.imp (keep _) (keep _))

theorem memsetLoop_spec {s : Addr} {b : UInt8} : ∀ (n i : Nat) (m : Mem), i + n ≤ 2 ^ 64 →
    (∀ j, i ≤ j → j < i + n → m (off s j) ≠ none) →
    ∃ m', memsetLoop m s b n i = .ok m' ∧
      (∀ j, i ≤ j → j < i + n → m' (off s j) = some b) ∧
      (∀ a, (∀ j, i ≤ j → j < i + n → a ≠ off s j) → m' a = m a)
  | 0, i, m, _, _ => ⟨m, rfl, by intros; omega, fun _ _ => rfl⟩
  | n + 1, i, m, hn, hd => by
    have hdi := hd i (le_refl _) (by omega)
    have hmap : ∀ a, m a ≠ none → upd m (off s i) (some b) a ≠ none := by
      intro a ha
      unfold upd
      split
      · simp
      · exact ha
    obtain ⟨m', h1, h2, h3⟩ := memsetLoop_spec n (i + 1) (upd m (off s i) (some b)) (by omega)
      (fun j hj hj' => hmap _ (hd j (by omega) (by omega)))
    refine ⟨m', ?_, ?_, ?_⟩
    · rw [memsetLoop, store_ok hdi]
      exact h1
    · intro j hj hj'
      by_cases hji : j = i
      · subst hji
        rw [h3 (off s j) (fun k hk hk' he => by
          have := off_inj (by omega) (by omega) he
          omega)]
        simp [upd]
      · exact h2 j (by omega) (by omega)
    · intro a ha
      rw [h3 a (fun j hj hj' => ha j (by omega) (by omega))]
      have : a ≠ off s i := ha i (le_refl _) (by omega)
      simp [upd, this]

end Gotcha.LibC
