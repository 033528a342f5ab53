import Verif.Proof.LibC
/-
Lemmas about `gotcha_atoi`.
-/
namespace Gotcha.LibC
open Gotcha Gotcha.Spec.LibC

theorem bytes_get {m : Memory} : ∀ {bs : List UInt8} {p : Addr}, Bytes m p bs →
    ∀ i (h : i < bs.length), m (off p i) = some bs[i]
  | [], _, _, i, hi => absurd hi (Nat.not_lt_zero i)
  | c :: s, p, ⟨h1, h2⟩, 0, _ => by rw [off_zero]; exact h1
  | c :: s, p, ⟨h1, h2⟩, i + 1, hi => by
    have := bytes_get h2 i (by simpa using hi)
    rw [show off p (i + 1) = off (p + 1) i by
      rw [Nat.add_comm, ← off_add]; rfl]
    simpa using this

theorem bytes_append {m : Memory} : ∀ {bs cs : List UInt8} {p : Addr}, Bytes m p (bs ++ cs) →
    Bytes m p bs ∧ Bytes m (off p bs.length) cs
  | [], cs, p, h => ⟨trivial, by rw [List.length_nil, off_zero]; exact h⟩
  | c :: s, cs, p, ⟨h1, h2⟩ => by
    obtain ⟨a, b⟩ := bytes_append h2
    refine ⟨⟨h1, a⟩, ?_⟩
    rw [List.length_cons, Nat.add_comm, ← off_add]
    exact b

theorem schar_eq (c : UInt8) :
    schar c = if c.toNat < 128 then (c.toNat : Int) else (c.toNat : Int) - 256 := by
  unfold schar
  have := c.toNat_lt
  rw [BitVec.toInt_eq_toNat_cond, BitVec.toNat_ofNat, Nat.mod_eq_of_lt (by omega)]
  split <;> split <;> omega

theorem schar_digit (c : UInt8) : (schar c ≥ 48 ∧ schar c ≤ 57) ↔ IsDigit c := by
  rw [schar_eq]
  unfold IsDigit
  have := c.toNat_lt
  split <;> omega

/-- The value of a digit character. -/
def dv (c : UInt8) : Nat := c.toNat - 48

theorem schar_sub {c : UInt8} (h : IsDigit c) : schar c - 48 = (dv c : Int) := by
  rw [schar_eq]
  unfold dv
  unfold IsDigit at h
  split <;> omega

theorem dv_lt {c : UInt8} (h : IsDigit c) : dv c ≤ 9 := by
  unfold dv
  unfold IsDigit at h
  omega

theorem decimal_foldl : ∀ (ds : Name) (v : Nat),
    ds.foldl (fun v c => v * 10 + (c.toNat - 48)) v = v * 10 ^ ds.length + decimal ds
  | [], v => by simp [decimal]
  | c :: ds, v => by
    have h : decimal (c :: ds) = (0 * 10 + (c.toNat - 48)) * 10 ^ ds.length + decimal ds := by
      rw [← decimal_foldl ds]; rfl
    rw [List.foldl_cons, decimal_foldl ds, h, List.length_cons]
    ring

theorem decimal_cons (c : UInt8) (ds : Name) :
    decimal (c :: ds) = dv c * 10 ^ ds.length + decimal ds := by
  rw [decimal, List.foldl_cons, decimal_foldl]
  simp [dv]

theorem decimal_lt : ∀ (ds : Name), (∀ c ∈ ds, IsDigit c) → decimal ds < 10 ^ ds.length
  | [], _ => by simp [decimal]
  | c :: ds, h => by
    rw [decimal_cons, List.length_cons, Nat.pow_succ]
    have h1 := decimal_lt ds (fun x hx => h x (List.mem_cons_of_mem _ hx))
    have h2 := dv_lt (h c (List.mem_cons_self ..))
    have : dv c * 10 ^ ds.length ≤ 9 * 10 ^ ds.length := Nat.mul_le_mul_right _ h2
    omega

theorem atoiNeg_spec {m : Mem} {c : UInt8} (hc : c ≠ 45) : ∀ (k n : Nat) (p : Addr) (neg : Int),
    k < n → (∀ i < k, m (off p i) = some 45) → m (off p k) = some c →
    atoiNeg m n p neg = .ok (off p k, neg * (-1) ^ k)
  | 0, n + 1, p, neg, _, _, h => by
    rw [off_zero] at h
    simp [atoiNeg, load_some h, hc, off_zero]
  | k + 1, n + 1, p, neg, hn, hd, h => by
    have h0 := hd 0 (by omega)
    rw [off_zero] at h0
    have e : ∀ i, off p (i + 1) = off (p + 1) i := fun i => by
      rw [Nat.add_comm, ← off_add]; rfl
    rw [atoiNeg, load_some h0]
    simp only [if_true]
    rw [atoiNeg_spec hc k n (p + 1) (neg * -1) (by omega)
      (fun i hi => by rw [← e]; exact hd (i + 1) (by omega)) (by rw [← e]; exact h), e]
    rw [pow_succ]
    congr 2
    ring

theorem atoiLen_spec {m : Mem} {p : Addr} {ds : Name} {c : UInt8} (hb : Bytes m p (ds ++ [c]))
    (hd : ∀ d ∈ ds, IsDigit d) (hc : ¬ IsDigit c) : ∀ (k n i : Nat), k < n → i + k = ds.length →
    atoiLen m p n i = .ok ds.length
  | 0, n + 1, i, _, hi => by
    have h := bytes_get hb i (by simp; omega)
    rw [List.getElem_append_right (by omega)] at h
    simp only [List.getElem_singleton] at h
    rw [atoiLen, load_some h]
    show (if schar c ≥ 48 ∧ schar c ≤ 57 then _ else _) = _
    rw [if_neg (fun h => hc ((schar_digit c).mp h))]
    congr 1
  | k + 1, n + 1, i, hn, hi => by
    have h := bytes_get hb i (by simp; omega)
    rw [List.getElem_append_left (by omega)] at h
    rw [atoiLen, load_some h]
    show (if schar ds[i] ≥ 48 ∧ schar ds[i] ≤ 57 then _ else _) = _
    rw [if_pos ((schar_digit _).mpr (hd _ (List.getElem_mem _)))]
    exact atoiLen_spec hb hd hc k n (i + 1) (by omega) (by omega)

theorem int32_ok {z : Int} (h : -2147483648 ≤ z ∧ z ≤ 2147483647) : int32 z = .ok z := if_pos h

theorem drop_step {ds : Name} {k : Nat} (h : k < ds.length) :
    decimal (ds.drop k) = dv ds[k] * 10 ^ (ds.length - (k + 1)) + decimal (ds.drop (k + 1)) := by
  rw [List.drop_eq_getElem_cons h, decimal_cons, List.length_drop]

theorem atoiVal_spec {m : Mem} {p : Addr} {ds : Name} (hb : Bytes m p ds)
    (hd : ∀ d ∈ ds, IsDigit d) (hl : ds.length ≤ 9) : ∀ (k d : Nat), k + d = ds.length →
    atoiVal m p k (decimal (ds.drop k)) (10 ^ d : Nat) = .ok (decimal ds)
  | 0, d, _ => by simp [atoiVal]
  | k + 1, d, hk => by
    have hlt : k < ds.length := by omega
    have h := bytes_get hb k hlt
    have hdig := hd _ (List.getElem_mem hlt)
    have hdv := dv_lt hdig
    have hstep := drop_step hlt
    rw [show ds.length - (k + 1) = d by omega] at hstep
    have hb1 := decimal_lt (ds.drop k) (fun c hc => hd c (List.mem_of_mem_drop hc))
    rw [List.length_drop, show ds.length - k = d + 1 by omega] at hb1
    have hpow : 10 ^ (d + 1) ≤ 1000000000 :=
      Nat.le_trans (Nat.pow_le_pow_right (by omega) (show d + 1 ≤ 9 by omega)) (by norm_num)
    have hmul : 10 ^ d * dv ds[k] = dv ds[k] * 10 ^ d := Nat.mul_comm _ _
    have hps : 10 ^ (d + 1) = 10 ^ d * 10 := Nat.pow_succ ..
    rw [atoiVal, load_some h]
    simp only [schar_sub hdig]
    have e1 : ((10 ^ d : Nat) : Int) * (dv ds[k] : Int) = ((10 ^ d * dv ds[k] : Nat) : Int) := by
      push_cast; ring
    rw [e1, int32_ok (by omega)]
    simp only
    have e2 : ((decimal (ds.drop (k + 1)) : Nat) : Int) + ((10 ^ d * dv ds[k] : Nat) : Int) =
        ((decimal (ds.drop k) : Nat) : Int) := by
      rw [hstep, hmul]; push_cast; ring
    rw [e2, int32_ok (by omega)]
    simp only
    have e3 : ((10 ^ d : Nat) : Int) * 10 = ((10 ^ (d + 1) : Nat) : Int) := by
      rw [hps]; push_cast; ring
    rw [e3, int32_ok (by omega)]
    simp only
    exact atoiVal_spec hb hd hl k (d + 1) (by omega)

theorem int32_cases (z : Int) : int32 z = .ok z ∨ int32 z = .error .intOverflow := by
  unfold int32
  split
  · exact Or.inl rfl
  · exact Or.inr rfl

/-- From the tenth digit on the multiplier does not fit an `int`. -/
theorem atoiVal_overflow {m : Mem} {p : Addr} {ds : Name} (hb : Bytes m p ds) :
    ∀ (j k d : Nat) (val : Int), j + d = 9 → j < k → k ≤ ds.length →
    atoiVal m p k val (10 ^ d : Nat) = .error .intOverflow
  | j, 0, _, _, _, h, _ => absurd h (Nat.not_lt_zero j)
  | j, k + 1, d, val, hj, hk, hl => by
    have hlt : k < ds.length := by omega
    have h := bytes_get hb k hlt
    rw [atoiVal, load_some h]
    simp only
    rcases int32_cases (((10 ^ d : Nat) : Int) * (schar ds[k] - 48)) with e1 | e1
    · rw [e1]
      simp only
      rcases int32_cases (val + ((10 ^ d : Nat) : Int) * (schar ds[k] - 48)) with e2 | e2
      · rw [e2]
        simp only
        have e3 : ((10 ^ d : Nat) : Int) * 10 = ((10 ^ (d + 1) : Nat) : Int) := by
          push_cast; ring
        rw [e3]
        cases j with
        | zero =>
          have : d = 9 := by omega
          subst this
          have : int32 ((10 ^ (9 + 1) : Nat) : Int) = .error .intOverflow := by
            unfold int32
            exact if_neg (by norm_num)
          rw [this]
        | succ j =>
          rcases int32_cases ((10 ^ (d + 1) : Nat) : Int) with e4 | e4
          · rw [e4]
            exact atoiVal_overflow hb j k (d + 1) _ (by omega) (by omega) (by omega)
          · rw [e4]
      · rw [e2]
    · rw [e1]

theorem atoiValWrap_spec {m : Mem} {p : Addr} {ds : Name} (hb : Bytes m p ds)
    (hd : ∀ d ∈ ds, IsDigit d) : ∀ (k d : Nat), k + d = ds.length →
    atoiValWrap m p k (BitVec.ofNat 32 (decimal (ds.drop k))) (BitVec.ofNat 32 (10 ^ d)) =
      .ok (BitVec.ofNat 32 (decimal ds))
  | 0, d, _ => by simp [atoiValWrap]
  | k + 1, d, hk => by
    have hlt : k < ds.length := by omega
    have h := bytes_get hb k hlt
    have hdig := hd _ (List.getElem_mem hlt)
    have hstep := drop_step hlt
    rw [show ds.length - (k + 1) = d by omega] at hstep
    rw [atoiValWrap, load_some h]
    simp only [schar_sub hdig]
    have e : BitVec.ofNat 32 (decimal (ds.drop (k + 1))) +
        BitVec.ofNat 32 (10 ^ d) * BitVec.ofInt 32 (dv ds[k] : Int) =
        BitVec.ofNat 32 (decimal (ds.drop k)) := by
      rw [hstep, BitVec.ofInt_natCast, ← BitVec.ofNat_mul, ← BitVec.ofNat_add]
      congr 1
      ring
    have e' : BitVec.ofNat 32 (10 ^ d) * 10 = BitVec.ofNat 32 (10 ^ (d + 1)) := by
      rw [Nat.pow_succ, BitVec.ofNat_mul]; rfl
    rw [e, e']
    exact atoiValWrap_spec hb hd k (d + 1) (by omega)

end Gotcha.LibC

namespace Gotcha.Spec.LibC
open Gotcha Gotcha.LibC

theorem Numeral.first {m : Memory} {p : Addr} {k : Nat} {ds : Name} {c : UInt8}
    (h : Numeral m p k ds c) : ∃ c', c' ≠ 45 ∧ m (off p k) = some c' := by
  have h1 := (bytes_append h.bytes).2
  rw [List.length_replicate] at h1
  cases ds with
  | nil => exact ⟨c, h.dash rfl, h1.1⟩
  | cons d ds =>
    refine ⟨d, ?_, h1.1⟩
    rintro rfl
    have := h.digits 45 (List.mem_cons_self ..)
    unfold IsDigit at this
    exact absurd this (by decide)

theorem Numeral.short {m : Memory} {p : Addr} {k : Nat} {ds : Name} {c : UInt8}
    (h : Numeral m p k ds c) : k < 2 ^ 64 := by
  by_contra hc
  obtain ⟨c', h1, h2⟩ := h.first
  have h3 := off_wrap p (k - 2 ^ 64)
  rw [Nat.sub_add_cancel (by omega)] at h3
  have h4 := bytes_get (bytes_append h.bytes).1 (k - 2 ^ 64) (by simp; omega)
  rw [← h3, h2] at h4
  simp only [List.getElem_replicate] at h4
  exact h1 (Option.some.inj h4)

theorem Numeral.neg {m : Mem} {p : Addr} {k : Nat} {ds : Name} {c : UInt8}
    (h : Numeral m p k ds c) : atoiNeg m (2 ^ 64) p 1 = .ok (off p k, (-1) ^ k) := by
  obtain ⟨c', h1, h2⟩ := h.first
  have := atoiNeg_spec h1 k (2 ^ 64) p 1 h.short (fun i hi => by
    have := bytes_get (bytes_append h.bytes).1 i (by simpa using hi)
    simpa using this) h2
  rwa [one_mul] at this

theorem Numeral.tail {m : Mem} {p : Addr} {k : Nat} {ds : Name} {c : UInt8}
    (h : Numeral m p k ds c) : Bytes m (off p k) (ds ++ [c]) := by
  have := (bytes_append h.bytes).2
  rwa [List.length_replicate] at this

end Gotcha.Spec.LibC

namespace Gotcha.LibC

theorem neg_one_cases (k : Nat) : ((-1 : Int)) ^ k = 1 ∨ ((-1 : Int)) ^ k = -1 :=
  neg_one_pow_eq_or ℤ k

end Gotcha.LibC
