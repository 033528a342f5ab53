import Verif.Spec.Printf
import Mathlib.Tactic.Ring
import Mathlib.Tactic.Linarith
import Mathlib.Tactic.IntervalCases
/-
Lemmas about the number formatting functions.
-/
namespace Gotcha.Printf
open Gotcha Gotcha.LibC Gotcha.Spec.Printf

theorem numeral_small {u : Bool} {b n : Nat} (h : n < b) : numeral u b n = [digitChar u n] := by
  rw [numeral]
  simp [h]

theorem numeral_big {u : Bool} {b n : Nat} (hb : 2 ≤ b) (h : b ≤ n) :
    numeral u b n = numeral u b (n / b) ++ [digitChar u (n % b)] := by
  rw [numeral]
  rw [dif_neg (by omega)]

theorem numeral_ne {u : Bool} {b n : Nat} : numeral u b n ≠ [] := by
  rw [numeral]
  split <;> simp

theorem numeral_len {u : Bool} {b : Nat} (hb : 2 ≤ b) : ∀ (k n : Nat), n < b ^ (k + 1) →
    (numeral u b n).length ≤ k + 1
  | 0, n, h => by
    rw [numeral_small (by simpa using h)]
    simp
  | k + 1, n, h => by
    by_cases hn : n < b
    · rw [numeral_small hn]; simp
    · rw [numeral_big hb (by omega)]
      have : n / b < b ^ (k + 1) := by
        rw [Nat.div_lt_iff_lt_mul (by omega)]
        rwa [← Nat.pow_succ]
      have := numeral_len (u := u) hb k (n / b) this
      simp
      omega

theorem digitChar_toNat {u : Bool} {d : Nat} (h : d < 16) :
    (digitChar u d).toNat = if d < 10 then 48 + d else (if u then 65 else 97) + (d - 10) := by
  unfold digitChar
  rw [UInt8.toNat_ofNat']
  cases u <;> simp only [if_true, Bool.false_eq_true, if_false] <;> split <;> omega

theorem digitVal_char {u : Bool} {d : Nat} (h : d < 16) : digitVal (digitChar u d) = d := by
  unfold digitVal
  rw [digitChar_toNat h]
  cases u <;> simp only [if_true, Bool.false_eq_true, if_false] <;> split <;> (repeat' split) <;> omega

theorem digitChar_ne_zero {u : Bool} {d : Nat} (h : d < 16) : digitChar u d ≠ 0 := by
  intro hc
  have := congrArg UInt8.toNat hc
  rw [digitChar_toNat h] at this
  cases u <;> simp only [if_true, Bool.false_eq_true, if_false] at this <;> split at this <;>
    simp at this <;> omega

theorem digitChar_zero_iff {u : Bool} {d : Nat} (h : d < 16) : digitChar u d = 48 ↔ d = 0 := by
  constructor
  · intro hc
    have := congrArg UInt8.toNat hc
    rw [digitChar_toNat h] at this
    cases u <;> simp only [if_true, Bool.false_eq_true, if_false] at this <;> split at this <;>
      simp at this <;> omega
  · rintro rfl
    cases u <;> rfl

theorem numeral_digits {u : Bool} {b : Nat} (hb : 2 ≤ b) : ∀ (n : Nat), ∀ c ∈ numeral u b n,
    ∃ d < b, c = digitChar u d := by
  intro n
  induction n using Nat.strong_induction_on with
  | _ n ih =>
    intro c hc
    by_cases hn : n < b
    · rw [numeral_small hn] at hc
      exact ⟨n, hn, by simpa using hc⟩
    · rw [numeral_big hb (by omega)] at hc
      rcases List.mem_append.mp hc with hc | hc
      · exact ih (n / b) (Nat.div_lt_self (by omega) (by omega)) c hc
      · exact ⟨n % b, Nat.mod_lt _ (by omega), by simpa using hc⟩

theorem numeral_value {u : Bool} {b : Nat} (hb : 2 ≤ b) (h16 : b ≤ 16) : ∀ (n : Nat),
    (numeral u b n).foldl (fun v c => v * b + digitVal c) 0 = n := by
  intro n
  induction n using Nat.strong_induction_on with
  | _ n ih =>
    by_cases hn : n < b
    · rw [numeral_small hn]
      simp [digitVal_char (show n < 16 by omega)]
    · rw [numeral_big hb (by omega), List.foldl_append,
        ih (n / b) (Nat.div_lt_self (by omega) (by omega))]
      have : n % b < b := Nat.mod_lt _ (by omega)
      simp only [List.foldl_cons, List.foldl_nil, digitVal_char (u := u) (show n % b < 16 by omega)]
      rw [Nat.mul_comm]
      exact Nat.div_add_mod n b

theorem numeral_leading {u : Bool} {b : Nat} (hb : 2 ≤ b) (h16 : b ≤ 16) : ∀ (n : Nat), n ≠ 0 →
    ∃ c s, numeral u b n = c :: s ∧ c ≠ 48 := by
  intro n
  induction n using Nat.strong_induction_on with
  | _ n ih =>
    intro h0
    by_cases hn : n < b
    · rw [numeral_small hn]
      exact ⟨_, _, rfl, fun h => h0 ((digitChar_zero_iff (by omega)).mp h)⟩
    · rw [numeral_big hb (by omega)]
      have hpos : n / b ≠ 0 := by
        have := Nat.div_pos (show b ≤ n by omega) (by omega)
        omega
      obtain ⟨c, s, h1, h2⟩ := ih (n / b) (Nat.div_lt_self (by omega) (by omega)) hpos
      exact ⟨c, s ++ [digitChar u (n % b)], by rw [h1]; rfl, h2⟩

theorem numeral_denotes {u : Bool} {b : Nat} (hb : 2 ≤ b) (h16 : b ≤ 16) (n : Nat) :
    Denotes u b n (numeral u b n) where
  digits := numeral_digits hb n
  value := numeral_value hb h16 n
  leading := by
    intro h
    by_cases h0 : n = 0
    · subst h0
      rw [numeral_small (by omega)]
      have : digitChar u 0 = 48 := by cases u <;> rfl
      rw [this]
    · obtain ⟨c, s, h1, h2⟩ := numeral_leading (u := u) hb h16 n h0
      rw [h1] at h
      exact absurd (Option.some.inj h) h2
  nonempty := numeral_ne

/-! ### The code -/

section
variable {u : Bool} {base : BitVec 64} {chr : BitVec 64 → UInt8}

/-- The last `k` digits of `v`. -/
def low (u : Bool) (b : Nat) : Nat → Nat → Name
  | 0, _ => []
  | k + 1, v => low u b k (v / b) ++ [digitChar u (v % b)]

theorem low_length (u : Bool) (b : Nat) : ∀ (k v : Nat), (low u b k v).length = k
  | 0, _ => rfl
  | k + 1, v => by simp [low, low_length u b k]

theorem low_numeral {b : Nat} (hb : 2 ≤ b) : ∀ (n : Nat),
    low u b (numeral u b n).length n = numeral u b n := by
  intro n
  induction n using Nat.strong_induction_on with
  | _ n ih =>
    by_cases hn : n < b
    · rw [numeral_small hn]
      simp [low, Nat.mod_eq_of_lt hn]
    · rw [numeral_big hb (by omega), List.length_append, List.length_singleton, low,
        ih (n / b) (Nat.div_lt_self (by omega) (by omega))]

theorem putDigits_spec (hchr : ∀ d : BitVec 64, d.toNat < base.toNat → chr d = digitChar u d.toNat)
    (h0 : 0 < base.toNat) (b : Nat) : ∀ (k : Nat) (val : BitVec 64) (arr : List UInt8),
    b + k ≤ arr.length →
    putDigits base chr b k val arr =
      .ok (arr.take b ++ (low u base.toNat k val.toNat ++ arr.drop (b + k)))
  | 0, val, arr, _ => by simp [putDigits, low]
  | k + 1, val, arr, h => by
    rw [putDigits, setAt, if_pos (by omega)]
    simp only
    rw [putDigits_spec hchr h0 b k (val / base) _ (by simp; omega)]
    rw [hchr (val % base) (by rw [BitVec.toNat_umod]; exact Nat.mod_lt _ h0)]
    rw [List.take_set_of_le (by omega), low, BitVec.toNat_udiv, BitVec.toNat_umod,
      List.append_assoc]
    congr 3
    rw [List.drop_eq_getElem_cons (by simp; omega)]
    simp only [List.getElem_set_self, List.singleton_append]
    rw [List.drop_set_of_lt (by omega)]
    rfl

theorem countDigits_spec (hb : 2 ≤ base.toNat) : ∀ (n : Nat) (val : BitVec 64) (len : Nat),
    val.toNat < 2 ^ n → countDigits base (n + 1) val len =
      .ok (if val = 0 then len else len + (numeral u base.toNat val.toNat).length)
  | n, val, len, h => by
    rw [countDigits]
    by_cases h0 : val = 0
    · simp [h0]
    · rw [if_neg h0, if_neg h0]
      have hpos : val.toNat ≠ 0 := fun hc => h0 (BitVec.eq_of_toNat_eq (by rw [hc]; rfl))
      cases n with
      | zero => simp at h; omega
      | succ n =>
        have hd : (val / base).toNat = val.toNat / base.toNat := BitVec.toNat_udiv ..
        have hlt : (val / base).toNat < 2 ^ n := by
          rw [hd, Nat.div_lt_iff_lt_mul (by omega)]
          calc val.toNat < 2 ^ (n + 1) := h
            _ = 2 ^ n * 2 := Nat.pow_succ ..
            _ ≤ 2 ^ n * base.toNat := Nat.mul_le_mul_left _ hb
        rw [countDigits_spec hb n (val / base) (len + 1) hlt]
        congr 1
        by_cases hs : val.toNat < base.toNat
        · have : val / base = 0 := by
            apply BitVec.eq_of_toNat_eq
            rw [hd, Nat.div_eq_of_lt hs]; rfl
          rw [if_pos this, numeral_small hs]
          rfl
        · have : val / base ≠ 0 := by
            intro hc
            have h2 := congrArg BitVec.toNat hc
            rw [hd] at h2
            have := Nat.div_pos (show base.toNat ≤ val.toNat by omega) (by omega)
            have h3 : (0 : BitVec 64).toNat = 0 := rfl
            omega
          rw [if_neg this, hd, numeral_big (n := val.toNat) hb (by omega), List.length_append]
          simp
          omega

theorem ulongTo_spec (hb : 2 ≤ base.toNat)
    (hchr : ∀ d : BitVec 64, d.toNat < base.toNat → chr d = digitChar u d.toNat)
    (num : BitVec 64) (b : Nat) (strlen : Int) (arr : List UInt8)
    (hfit : ((numeral u base.toNat num.toNat).length : Int) + 1 < strlen)
    (harr : b + (numeral u base.toNat num.toNat).length + 1 ≤ arr.length) :
    ulongTo base chr num b strlen arr =
      .ok (arr.take b ++ (numeral u base.toNat num.toNat ++
          0 :: arr.drop (b + (numeral u base.toNat num.toNat).length + 1)),
        (numeral u base.toNat num.toNat).length) := by
  unfold ulongTo
  by_cases h0 : num = 0
  · subst h0
    have hn : numeral u base.toNat (0 : BitVec 64).toNat = [48] := by
      rw [show (0 : BitVec 64).toNat = 0 from rfl, numeral_small (by omega)]
      cases u <;> rfl
    rw [hn] at hfit harr ⊢
    simp only [List.length_singleton] at hfit harr ⊢
    rw [if_pos trivial, if_neg (by omega), setAt, if_pos (by omega)]
    simp only
    rw [setAt, if_pos (by simp; omega)]
    simp only
    have e1 : arr = arr.take b ++ (arr[b]'(by omega) :: (arr[b + 1]'(by omega) :: arr.drop (b + 1 + 1))) := by
      rw [← List.drop_eq_getElem_cons, ← List.drop_eq_getElem_cons, List.take_append_drop]
    have hl : (arr.take b).length = b := by simp; omega
    congr 2
    conv_lhs => rw [e1]
    rw [List.set_append_right _ _ (by omega), List.set_append_right _ _ (by omega), hl]
    rw [Nat.sub_self, Nat.add_sub_cancel_left]
    rfl
  · rw [if_neg h0, countDigits_spec (u := u) hb 64 num 0 num.isLt, if_neg h0, Nat.zero_add]
    simp only
    rw [if_neg (by omega), setAt, if_pos (by omega)]
    simp only
    rw [putDigits_spec hchr (by omega) b _ num _ (by simp; omega), low_numeral hb]
    simp only
    congr 3
    · rw [List.take_set_of_le (by omega)]
    · rw [List.drop_eq_getElem_cons (by simp; omega)]
      simp only [List.getElem_set_self]
      rw [List.drop_set_of_lt (by omega)]
end

theorem cstrOf_append : ∀ (s rest : List UInt8), (∀ c ∈ s, c ≠ 0) → cstrOf (s ++ 0 :: rest) = .ok s
  | [], rest, _ => by simp [cstrOf]
  | c :: s, rest, h => by
    rw [List.cons_append, cstrOf, if_neg (h c (List.mem_cons_self ..)),
      cstrOf_append s rest (fun x hx => h x (List.mem_cons_of_mem _ hx))]

theorem decChar_eq (d : BitVec 64) (h : d.toNat < (10 : BitVec 64).toNat) :
    decChar d = digitChar false d.toNat := by
  have h' : d.toNat < 10 := h
  unfold decChar digitChar
  rw [if_pos h', BitVec.toNat_add, Nat.mod_eq_of_lt (by simp; omega), Nat.mod_eq_of_lt (by simp; omega)]
  rfl

theorem hexChar_eq (u : Bool) (d : BitVec 64) (h : d.toNat < (16 : BitVec 64).toNat) :
    hexChar u d = digitChar u d.toNat := by
  have h' : d.toNat < 16 := h
  have hd : d = BitVec.ofNat 64 d.toNat := by simp
  generalize hk : d.toNat = k at *
  subst hd
  interval_cases k <;> cases u <;> rfl

theorem pow_bound (x : BitVec 64) : x.toNat < 10 ^ 20 := by
  have := x.isLt
  norm_num at *
  omega

theorem dec_len (u : Bool) (x : BitVec 64) : (numeral u 10 x.toNat).length ≤ 20 :=
  numeral_len (by omega) 19 x.toNat (pow_bound x)

theorem hex_len (u : Bool) (x : BitVec 64) : (numeral u 16 x.toNat).length ≤ 16 :=
  numeral_len (by omega) 15 x.toNat (by have := x.isLt; norm_num at *; omega)

theorem numeral_nonzero {u : Bool} {b : Nat} (hb : 2 ≤ b) (h16 : b ≤ 16) (n : Nat) :
    ∀ c ∈ numeral u b n, c ≠ 0 := by
  intro c hc
  obtain ⟨d, hd, e⟩ := numeral_digits hb n c hc
  rw [e]
  exact digitChar_ne_zero (by omega)

theorem ulongToStr_spec (num : BitVec 64) (b : Nat) (strlen : Int) (arr : List UInt8)
    (hs : 21 < strlen) (ha : b + 21 ≤ arr.length) :
    ulongToStr num b strlen arr =
      .ok (arr.take b ++ (numeral false 10 num.toNat ++
          0 :: arr.drop (b + (numeral false 10 num.toNat).length + 1)),
        (numeral false 10 num.toNat).length) := by
  have h1 := dec_len false num
  exact ulongTo_spec (base := 10) (u := false) (by decide) decChar_eq num b strlen arr
    (by show ((numeral false 10 num.toNat).length : Int) + 1 < strlen; omega)
    (by show b + (numeral false 10 num.toNat).length + 1 ≤ _; omega)

theorem ulongToHexstr_spec (u : Bool) (num : BitVec 64) (strlen : Int) (arr : List UInt8)
    (hs : 17 < strlen) (ha : 17 ≤ arr.length) :
    ulongToHexstr num 0 strlen u arr =
      .ok (numeral u 16 num.toNat ++ 0 :: arr.drop ((numeral u 16 num.toNat).length + 1),
        (numeral u 16 num.toNat).length) := by
  have h1 := hex_len u num
  have := ulongTo_spec (base := 16) (u := u) (by decide) (hexChar_eq u) num 0 strlen arr
    (by show ((numeral u 16 num.toNat).length : Int) + 1 < strlen; omega)
    (by show 0 + (numeral u 16 num.toNat).length + 1 ≤ _; omega)
  rw [List.take_zero, List.nil_append, Nat.zero_add] at this
  exact this

/-- The contents of the array that `slong_to_str` leaves. -/
theorem slongToStr_spec (num : BitVec 64) (strlen : Int) (arr : List UInt8) (hs : 22 < strlen)
    (ha : 22 ≤ arr.length) (hmin : num ≠ BitVec.intMin 64) :
    ∃ rest, slongToStr num strlen arr =
      .ok (integer num.toInt ++ 0 :: rest, (integer num.toInt).length) := by
  unfold slongToStr integer
  by_cases h0 : 0 ≤ num.toInt
  · rw [if_pos h0, if_pos h0, ulongToStr_spec num 0 strlen arr (by omega) (by omega)]
    have : num.toInt.toNat = num.toNat := by
      have := num.isLt
      rw [BitVec.toInt_eq_toNat_cond] at *
      split at h0 <;> split <;> omega
    rw [this]
    exact ⟨_, by rw [List.take_zero, List.nil_append]⟩
  · rw [if_neg h0, if_neg h0, if_neg hmin]
    have hneg : (-num).toNat = (-num.toInt).toNat := by
      have := num.isLt
      rw [BitVec.toNat_neg]
      rw [BitVec.toInt_eq_toNat_cond] at *
      split at h0 <;> split <;> omega
    rw [ulongToStr_spec (-num) 1 (strlen - 1) arr (by omega) (by omega), hneg]
    simp only
    rw [if_neg (by omega)]
    cases arr with
    | nil => simp at ha
    | cons a arr =>
      rw [setAt, if_pos (by simp)]
      refine ⟨arr.drop (1 + (numeral false 10 (-num.toInt).toNat).length), ?_⟩
      simp only [List.take_succ_cons, List.take_zero, List.cons_append, List.nil_append,
        List.set_cons_zero, List.length_cons, Nat.cast_add, Nat.cast_one]
      simp [List.drop_succ_cons]

end Gotcha.Printf
