import Verif.Model.Got
import Mathlib.Tactic.Ring
/-
Page arithmetic of mark_got_writable, in natural numbers.
-/
namespace Gotcha.Got
open Gotcha

variable {k : Nat}

theorem toNat_page (hk : k < 64) : (BitVec.ofNat 64 (2 ^ k)).toNat = 2 ^ k := by
  rw [BitVec.toNat_ofNat]
  exact Nat.mod_eq_of_lt (Nat.pow_lt_pow_right (by omega) hk)

theorem boundaryBefore_toNat (a : BitVec 64) (hk : k < 64) :
    (boundaryBefore a (BitVec.ofNat 64 (2 ^ k))).toNat = a.toNat / 2 ^ k * 2 ^ k := by
  have hneg : (-BitVec.ofNat 64 (2 ^ k)).toNat = 2 ^ k * (2 ^ (64 - k) - 1) := by
    rw [BitVec.toNat_neg, toNat_page hk, Nat.mul_sub, ← Nat.pow_add, Nat.mul_one,
      show k + (64 - k) = 64 by omega]
    apply Nat.mod_eq_of_lt
    have := Nat.two_pow_pos k
    omega
  unfold boundaryBefore
  rw [BitVec.toNat_and, hneg]
  apply Nat.eq_of_testBit_eq
  intro i
  rw [Nat.testBit_and, Nat.testBit_two_pow_mul, Nat.testBit_two_pow_sub_one, Nat.mul_comm _ (2 ^ k),
    Nat.testBit_two_pow_mul, Nat.testBit_div_two_pow]
  by_cases h : i ≥ k
  · have e : i - k + k = i := by omega
    rw [e]
    by_cases h64 : i < 64
    · have : i - k < 64 - k := by omega
      simp [h, this]
    · have : a.toNat.testBit i = false := by
        apply Nat.testBit_lt_two_pow
        calc a.toNat < 2 ^ 64 := a.isLt
          _ ≤ 2 ^ i := Nat.pow_le_pow_right (by omega) (by omega)
      simp [this]
  · simp [h]

/-- The next multiple of `p` from `a` on. -/
def ceilTo (p a : Nat) : Nat := (a + p - 1) / p * p

theorem ceilTo_ge {p : Nat} (hp : 0 < p) (a : Nat) : a ≤ ceilTo p a := by
  unfold ceilTo
  have h1 := Nat.div_add_mod (a + p - 1) p
  have h2 := Nat.mod_lt (a + p - 1) hp
  rw [Nat.mul_comm] at h1
  omega

theorem ceilTo_lt {p : Nat} (hp : 0 < p) (a : Nat) : ceilTo p a < a + p := by
  unfold ceilTo
  have := Nat.div_mul_le_self (a + p - 1) p
  omega

theorem ceilTo_dvd (p a : Nat) : p ∣ ceilTo p a := Dvd.intro_left _ rfl

theorem ceilTo_eq {p : Nat} (hp : 0 < p) {a m : Nat} (hm : p ∣ m) (h1 : a ≤ m) (h2 : m < a + p) :
    ceilTo p a = m := by
  obtain ⟨q, rfl⟩ := hm
  unfold ceilTo
  have : (a + p - 1) / p = q := by
    apply Nat.div_eq_of_lt_le
    · rw [Nat.mul_comm]; omega
    · rw [Nat.succ_mul, Nat.mul_comm]; omega
  rw [this, Nat.mul_comm]

/-- `roundUp`, without wrap-around: the next page boundary, at least one page. -/
theorem roundUp_toNat (a : BitVec 64) (hk : k < 64) (hw : ceilTo (2 ^ k) a.toNat < 2 ^ 64) :
    (roundUp a (BitVec.ofNat 64 (2 ^ k))).toNat = max (ceilTo (2 ^ k) a.toNat) (2 ^ k) := by
  have hp := Nat.two_pow_pos k
  have hpg := toNat_page hk
  have hplt : 2 ^ k < 2 ^ 64 := Nat.pow_lt_pow_right (by omega) hk
  have hge := ceilTo_ge hp a.toNat
  have hlt := ceilTo_lt hp a.toNat
  unfold roundUp
  simp only
  by_cases h : a > BitVec.ofNat 64 (2 ^ k)
  · rw [if_pos h]
    have h' : 2 ^ k < a.toNat := by
      rw [gt_iff_lt, BitVec.lt_def, hpg] at h; exact h
    have hmax : max (ceilTo (2 ^ k) a.toNat) (2 ^ k) = ceilTo (2 ^ k) a.toNat := by omega
    rw [hmax]
    have hmod : (a % BitVec.ofNat 64 (2 ^ k)).toNat = a.toNat % 2 ^ k := by
      rw [BitVec.toNat_umod, hpg]
    have hdm := Nat.div_add_mod a.toNat (2 ^ k)
    have hml := Nat.mod_lt a.toNat hp
    by_cases h0 : a % BitVec.ofNat 64 (2 ^ k) = 0
    · rw [if_neg (by simpa using h0)]
      have h0' : a.toNat % 2 ^ k = 0 := by rw [← hmod, h0]; rfl
      exact (ceilTo_eq hp (Nat.dvd_of_mod_eq_zero h0') (Nat.le_refl _) (by omega)).symm
    · rw [if_pos h0]
      have h0' : a.toNat % 2 ^ k ≠ 0 := by
        intro hc
        apply h0
        apply BitVec.eq_of_toNat_eq
        rw [hmod, hc]; rfl
      have hc : ceilTo (2 ^ k) a.toNat = a.toNat + (2 ^ k - a.toNat % 2 ^ k) := by
        apply ceilTo_eq hp
        · rw [show a.toNat + (2 ^ k - a.toNat % 2 ^ k) = 2 ^ k * (a.toNat / 2 ^ k) + 2 ^ k by omega]
          exact Nat.dvd_add (Nat.dvd_mul_right ..) (Nat.dvd_refl _)
        · omega
        · omega
      rw [hc] at hw ⊢
      have hs : (BitVec.ofNat 64 (2 ^ k) - a % BitVec.ofNat 64 (2 ^ k)).toNat =
          2 ^ k - a.toNat % 2 ^ k := by
        rw [BitVec.toNat_sub_of_le, hmod, hpg]
        rw [BitVec.le_def, hmod, hpg]
        omega
      rw [BitVec.toNat_add, hs]
      exact Nat.mod_eq_of_lt hw
  · rw [if_neg h]
    have h' : a.toNat ≤ 2 ^ k := by
      rw [gt_iff_lt, BitVec.lt_def, hpg] at h; omega
    have h0 : BitVec.ofNat 64 (2 ^ k) % BitVec.ofNat 64 (2 ^ k) = 0 := BitVec.umod_self
    rw [if_neg (by simp), hpg]
    have : ceilTo (2 ^ k) a.toNat ≤ 2 ^ k := by
      by_cases ha : a.toNat = 0
      · rw [ha]
        have : ceilTo (2 ^ k) 0 = 0 := ceilTo_eq hp (Nat.dvd_zero _) (Nat.le_refl _) (by omega)
        omega
      · exact Nat.le_of_eq (ceilTo_eq hp (Nat.dvd_refl _) h' (by omega))
    omega

theorem page_of_ceil {p s a stop : Nat} (hp : 0 < p) (hs : s < stop) (h1 : s / p * p ≤ a)
    (h2 : a < ceilTo p stop) : ∃ x, s ≤ x ∧ x < stop ∧ x / p = a / p := by
  by_cases h3 : a < s
  · refine ⟨s, Nat.le_refl _, hs, ?_⟩
    have e : s / p ≤ a / p := (Nat.le_div_iff_mul_le hp).2 h1
    have e2 : a / p ≤ s / p := Nat.div_le_div_right (by omega)
    omega
  · by_cases h4 : a < stop
    · exact ⟨a, by omega, h4, rfl⟩
    · refine ⟨stop - 1, by omega, by omega, ?_⟩
      have e : (stop - 1) / p ≤ a / p := Nat.div_le_div_right (by omega)
      have e2 : a / p < (stop - 1) / p + 1 := by
        rw [Nat.div_lt_iff_lt_mul hp]
        have : (stop + p - 1) / p = (stop - 1) / p + 1 := by
          rw [show stop + p - 1 = (stop - 1) + p by omega, Nat.add_div_right _ hp]
        unfold ceilTo at h2
        rw [this] at h2
        exact h2
      omega

theorem page_of_size {p g a r : Nat} (hp : 0 < p) (h1 : g / p * p ≤ a)
    (h2 : a < g / p * p + max (ceilTo p r) p) :
    g / p ≤ a / p ∧ (a / p = g / p ∨ a / p * p < g / p * p + r) := by
  have hge : g / p ≤ a / p := (Nat.le_div_iff_mul_le hp).2 h1
  refine ⟨hge, ?_⟩
  by_cases hr : r ≤ p
  · left
    have hc : ceilTo p r ≤ p := by
      by_cases h0 : r = 0
      · rw [h0, ceilTo_eq hp (Nat.dvd_zero _) (Nat.le_refl _) (by omega)]; omega
      · exact Nat.le_of_eq (ceilTo_eq hp (Nat.dvd_refl _) hr (by omega))
    have : a / p < g / p + 1 := by
      rw [Nat.div_lt_iff_lt_mul hp, Nat.succ_mul]; omega
    omega
  · right
    have hge2 := ceilTo_ge hp r
    have hlt := ceilTo_lt hp r
    obtain ⟨c, hc⟩ := ceilTo_dvd p r
    have h3 : a < (g / p + c) * p := by rw [Nat.add_mul, Nat.mul_comm c p]; omega
    have h4 := (Nat.div_lt_iff_lt_mul hp).2 h3
    have h5 : a / p * p + p ≤ (g / p + c) * p := by
      rw [← Nat.succ_mul]; exact Nat.mul_le_mul_right p h4
    rw [Nat.add_mul, Nat.mul_comm c p] at h5
    omega

/-- The page-rounded numbers behind `ranges`. -/
theorem ranges_shape {k : Nat} (hk : k < 64) {got : Addr} {relSize : BitVec 32}
    {relro : Option (Addr × Addr)}
    (hg : got.toNat + relSize.toNat + 2 * 2 ^ k ≤ 2 ^ 64)
    (hr : ∀ s e, relro = some (s, e) → s.toNat < e.toNat ∧ e.toNat + 2 ^ k ≤ 2 ^ 64) :
    ∃ P Z : Nat, P = got.toNat / 2 ^ k * 2 ^ k ∧ Z = max (ceilTo (2 ^ k) relSize.toNat) (2 ^ k) ∧
      ((relro = none ∧ ∃ r, ranges (BitVec.ofNat 64 (2 ^ k)) got relSize relro = [r] ∧
          r.1.toNat = P ∧ r.2.toNat = Z) ∨
        ∃ s e, ∃ A E : Nat, relro = some (s, e) ∧ A = s.toNat / 2 ^ k * 2 ^ k ∧
          E = ceilTo (2 ^ k) e.toNat ∧ A ≤ s.toNat ∧ e.toNat ≤ E ∧
          ((∃ r, ranges (BitVec.ofNat 64 (2 ^ k)) got relSize relro = [r] ∧
              ((A = P + Z ∧ r.1.toNat = P ∧ r.2.toNat = Z + (E - A)) ∨
                (P = E ∧ r.1.toNat = A ∧ r.2.toNat = Z + (E - A)))) ∨
            ∃ r1 r2, ranges (BitVec.ofNat 64 (2 ^ k)) got relSize relro = [r1, r2] ∧
              r1.1.toNat = A ∧ r1.2.toNat = E - A ∧ r2.1.toNat = P ∧ r2.2.toNat = Z)) := by
  have hp := Nat.two_pow_pos k
  refine ⟨_, _, rfl, rfl, ?_⟩
  have hset : (relSize.setWidth 64).toNat = relSize.toNat := by
    rw [BitVec.toNat_setWidth]
    have := relSize.isLt
    omega
  have hclt := ceilTo_lt hp relSize.toNat
  have hZ : (roundUp (relSize.setWidth 64) (BitVec.ofNat 64 (2 ^ k))).toNat =
      max (ceilTo (2 ^ k) relSize.toNat) (2 ^ k) := by
    rw [roundUp_toNat _ hk (by rw [hset]; omega), hset]
  have hP := boundaryBefore_toNat got hk
  have hPle := Nat.div_mul_le_self got.toNat (2 ^ k)
  cases relro with
  | none => exact Or.inl ⟨rfl, _, rfl, hP, hZ⟩
  | some se =>
    obtain ⟨s, e⟩ := se
    obtain ⟨hse, he⟩ := hr s e rfl
    right
    have hE1 := ceilTo_ge hp e.toNat
    have hE2 := ceilTo_lt hp e.toNat
    have hEp : 2 ^ k ≤ ceilTo (2 ^ k) e.toNat :=
      Nat.le_of_dvd (by omega) (ceilTo_dvd _ _)
    have hE : (roundUp e (BitVec.ofNat 64 (2 ^ k))).toNat = ceilTo (2 ^ k) e.toNat := by
      rw [roundUp_toNat _ hk (by omega)]; omega
    have hA := boundaryBefore_toNat s hk
    have hAle := Nat.div_mul_le_self s.toNat (2 ^ k)
    have hgs : (roundUp e (BitVec.ofNat 64 (2 ^ k)) -
        boundaryBefore s (BitVec.ofNat 64 (2 ^ k))).toNat =
        ceilTo (2 ^ k) e.toNat - s.toNat / 2 ^ k * 2 ^ k := by
      rw [BitVec.toNat_sub_of_le, hE, hA]
      rw [BitVec.le_def, hE, hA]
      omega
    refine ⟨s, e, _, _, rfl, rfl, rfl, hAle, hE1, ?_⟩
    unfold ranges
    simp only
    split
    · rename_i h1
      have h1' := congrArg BitVec.toNat h1
      rw [BitVec.toNat_add, hP, hZ, hA, Nat.mod_eq_of_lt (by omega)] at h1'
      left
      refine ⟨_, rfl, Or.inl ⟨h1', hP, ?_⟩⟩
      rw [BitVec.toNat_add, hZ, hgs]
      apply Nat.mod_eq_of_lt
      omega
    · split
      · rename_i _ h2
        have h2' := congrArg BitVec.toNat h2
        rw [BitVec.toNat_add, hP, hgs, hA, Nat.mod_eq_of_lt (by omega)] at h2'
        left
        refine ⟨_, rfl, Or.inr ⟨by omega, hA, ?_⟩⟩
        rw [BitVec.toNat_add, hZ, hgs]
        apply Nat.mod_eq_of_lt
        omega
      · right
        exact ⟨_, _, rfl, hA, hgs, hP, hZ⟩

end Gotcha.Got
