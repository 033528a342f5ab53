import Verif.Proof.Printf
import Mathlib.Data.List.Induction
/-
Properties C44-C46: number formatting and `gotcha_int_printf`.
-/
namespace Gotcha.Printf
open Gotcha Gotcha.LibC Gotcha.Spec.Printf

/-! ### C44 -/

/-- C44: the decimal rendering of every 64-bit value denotes it, has no leading zeros, and fits the
64-byte scratch buffer; the function returns its length.  It is followed by a NUL. -/
theorem C44_decimal (num : BitVec 64) (arr : List UInt8) (ha : arr.length = 64) :
    ∃ s rest, ulongToStr num 0 64 arr = .ok (s ++ 0 :: rest, s.length) ∧ (∀ c ∈ s, c ≠ 0) ∧
      (s ++ 0 :: rest).length = 64 ∧ Denotes false 10 num.toNat s := by
  have h := ulongToStr_spec num 0 64 arr (by omega) (by omega)
  have hl := dec_len false num
  rw [List.take_zero, List.nil_append] at h
  refine ⟨_, _, h, numeral_nonzero (by omega) (by omega) _, ?_, numeral_denotes (by omega) (by omega) _⟩
  simp only [List.length_append, List.length_cons, List.length_drop]
  omega

/-- C44: the same for hexadecimal, in the requested letter case. -/
theorem C44_hex (upper : Bool) (num : BitVec 64) (arr : List UInt8) (ha : arr.length = 64) :
    ∃ s rest, ulongToHexstr num 0 64 upper arr = .ok (s ++ 0 :: rest, s.length) ∧
      (∀ c ∈ s, c ≠ 0) ∧ (s ++ 0 :: rest).length = 64 ∧ Denotes upper 16 num.toNat s := by
  have h := ulongToHexstr_spec upper num 64 arr (by omega) (by omega)
  have hl := hex_len upper num
  refine ⟨_, _, h, numeral_nonzero (by omega) (by omega) _, ?_, numeral_denotes (by omega) (by omega) _⟩
  simp only [List.length_append, List.length_cons, List.length_drop]
  omega

/-- C44: with a buffer of any size the function stays inside it: it either stores the numeral and its
NUL, or leaves the buffer alone and returns -1.  It gives up when the text does not fit, and, except
for zero, also when the text fits exactly. -/
theorem C44_any_size (num : BitVec 64) (arr : List UInt8) (n : Nat) (hn : n ≤ arr.length) :
    ∃ s, Denotes false 10 num.toNat s ∧ ulongToStr num 0 n arr =
      if n < s.length + (if num = 0 then 1 else 2) then .ok (arr, -1)
      else .ok (s ++ 0 :: arr.drop (s.length + 1), s.length) := by
  refine ⟨_, numeral_denotes (by omega) (by omega) _, ?_⟩
  by_cases hfit : ((numeral false 10 num.toNat).length : Int) + 1 < n
  · rw [if_neg (by split <;> omega)]
    have := ulongTo_spec (base := 10) (u := false) (by decide) decChar_eq num 0 n arr hfit
      (by show 0 + (numeral false 10 num.toNat).length + 1 ≤ _; omega)
    rw [List.take_zero, List.nil_append, Nat.zero_add] at this
    exact this
  · by_cases h0 : num = 0
    · subst h0
      have hz : numeral false 10 (0 : BitVec 64).toNat = [48] := by
        rw [show (0 : BitVec 64).toNat = 0 from rfl, numeral_small (by omega)]
        rfl
      rw [hz] at hfit ⊢
      simp only [List.length_singleton, if_true] at hfit ⊢
      unfold ulongToStr ulongTo
      rw [if_pos rfl]
      by_cases h2 : n < 2
      · rw [if_pos (by omega), if_pos (by omega)]
      · rw [if_neg (by omega), if_neg (by omega)]
        match arr, hn with
        | [], hn => simp at hn; omega
        | [_], hn => simp at hn; omega
        | _ :: _ :: arr, _ => simp [setAt]
    · rw [if_pos (by rw [if_neg h0]; omega)]
      unfold ulongToStr ulongTo
      rw [if_neg h0, countDigits_spec (u := false) (base := 10) (by decide) 64 num 0 num.isLt, if_neg h0, Nat.zero_add]
      have : ((numeral false (10 : BitVec 64).toNat num.toNat).length : Int) + 1 ≥ n := by
        show ((numeral false 10 num.toNat).length : Int) + 1 ≥ n
        omega
      simp only
      rw [if_pos this]

/-- Not vacuous: 2026 into six bytes is written, into five it is not, although it would fit. -/
example : ulongToStr 2026 0 6 (List.replicate 6 7) = .ok ([50, 48, 50, 54, 0, 7], 4) ∧
    ulongToStr 2026 0 5 (List.replicate 6 7) = .ok (List.replicate 6 7, -1) := by decide +kernel

/-- C44: signed values get a minus sign, for every value but the smallest. -/
theorem C44_signed (num : BitVec 64) (arr : List UInt8) (ha : arr.length = 64)
    (hmin : num ≠ BitVec.intMin 64) :
    ∃ s rest, slongToStr num 64 arr = .ok (s ++ 0 :: rest, s.length) ∧ (∀ c ∈ s, c ≠ 0) ∧
      ((0 ≤ num.toInt ∧ Denotes false 10 num.toInt.toNat s) ∨
        (num.toInt < 0 ∧ ∃ t, s = 45 :: t ∧ Denotes false 10 (-num.toInt).toNat t)) := by
  obtain ⟨rest, h⟩ := slongToStr_spec num 64 arr (by omega) (by omega) hmin
  refine ⟨_, rest, h, integer_nonzero _, ?_⟩
  unfold integer
  split
  · next h0 => exact Or.inl ⟨h0, numeral_denotes (by omega) (by omega) _⟩
  · next h0 => exact Or.inr ⟨by omega, _, rfl, numeral_denotes (by omega) (by omega) _⟩

/-- C44: the same for negative numbers, whose text is one byte longer. -/
theorem C44_negative_any_size (num : BitVec 64) (arr : List UInt8) (n : Nat) (hn : n ≤ arr.length)
    (hneg : num.toInt < 0) (hmin : num ≠ BitVec.intMin 64) :
    ∃ s, Denotes false 10 (-num.toInt).toNat s ∧ slongToStr num n arr =
      if n < (45 :: s).length + 2 then .ok (arr, -1)
      else .ok (45 :: s ++ 0 :: arr.drop ((45 :: s).length + 1), (45 :: s).length) := by
  have hv : (-num).toNat = (-num.toInt).toNat := by
    have := num.isLt
    rw [BitVec.toNat_neg]
    rw [BitVec.toInt_eq_toNat_cond] at *
    split at hneg <;> split <;> omega
  have h0 : -num ≠ 0 := by
    intro h
    rw [h] at hv
    have : (0 : BitVec 64).toNat = 0 := rfl
    omega
  refine ⟨_, numeral_denotes (by omega) (by omega) _, ?_⟩
  rw [← hv]
  unfold slongToStr
  rw [if_neg (by omega), if_neg hmin, List.length_cons]
  by_cases hfit : ((numeral false 10 (-num).toNat).length : Int) + 1 < (n : Int) - 1
  · have := ulongTo_spec (base := 10) (u := false) (by decide) decChar_eq (-num) 1 ((n : Int) - 1) arr hfit
      (by show 1 + (numeral false 10 (-num).toNat).length + 1 ≤ _; omega)
    rw [if_neg (by omega)]
    unfold ulongToStr
    rw [this]
    simp only
    rw [if_neg (by omega)]
    match arr, hn with
    | [], hn => simp at hn; omega
    | a :: arr, _ =>
      rw [setAt, if_pos (by simp)]
      simp only [List.take_succ_cons, List.take_zero, List.cons_append, List.nil_append, List.set_cons_zero]
      congr 3
      rw [Nat.add_comm 1]
      rfl
  · rw [if_pos (by omega)]
    unfold ulongToStr ulongTo
    rw [if_neg h0, countDigits_spec (u := false) (base := 10) (by decide) 64 (-num) 0 (-num).isLt,
      if_neg h0, Nat.zero_add]
    have : ((numeral false (10 : BitVec 64).toNat (-num).toNat).length : Int) + 1 ≥ (n : Int) - 1 := by
      show ((numeral false 10 (-num).toNat).length : Int) + 1 ≥ (n : Int) - 1
      omega
    simp only
    rw [if_pos this]
    simp only [if_true]

/-- Not vacuous: -12 with room for five bytes. -/
example : ∃ s, Spec.Printf.Denotes false 10 (-(-12 : BitVec 64).toInt).toNat s ∧ slongToStr (-12) 5 (List.replicate 5 7) =
    if 5 < (45 :: s).length + 2 then .ok (List.replicate 5 7, -1)
    else .ok (45 :: s ++ 0 :: (List.replicate 5 7).drop ((45 :: s).length + 1), (45 :: s).length) :=
  C44_negative_any_size (-12) (List.replicate 5 7) 5 (by decide) (by decide) (by decide)

/-- C44: for the smallest 64-bit integer the code computes `num * -1`, a signed overflow. -/
theorem C44_signed_min_refuted (arr : List UInt8) (strlen : Int) :
    slongToStr (BitVec.intMin 64) strlen arr = .error .intOverflow := by
  unfold slongToStr
  rw [if_neg (by decide), if_pos rfl]

/-- C44: a number has only one rendering, so the theorems above determine the text; and reading it
back (`value` of `Denotes`) gives the number. -/
theorem C44_unique {u : Bool} {b : Nat} (hb : 2 ≤ b) (h16 : b ≤ 16) : ∀ (s : Name) {n : Nat},
    Denotes u b n s → s = numeral u b n := by
  intro s
  induction s using List.reverseRecOn with
  | nil => intro n h; exact absurd rfl h.nonempty
  | append_singleton t c ih =>
    intro n h
    obtain ⟨d, hd, hc⟩ := h.digits c (by simp)
    have hv := h.value
    rw [List.foldl_append] at hv
    simp only [List.foldl_cons, List.foldl_nil] at hv
    rw [hc, digitVal_char (by omega)] at hv
    cases ht : t with
    | nil =>
      rw [ht] at hv
      simp only [List.foldl_nil, Nat.zero_mul, Nat.zero_add] at hv
      rw [← hv, numeral_small hd, hc]
      rfl
    | cons a t' =>
      have htne : t ≠ [] := by rw [ht]; simp
      have hlead : t.head? ≠ some 48 := by
        intro h48
        have : (t ++ [c]).head? = some 48 := by rw [ht] at h48 ⊢; exact h48
        have := congrArg List.length (h.leading this)
        rw [ht] at this
        simp at this
      have hden : Denotes u b (t.foldl (fun v c => v * b + digitVal c) 0) t :=
        { digits := fun x hx => h.digits x (List.mem_append_left _ hx)
          value := rfl
          leading := fun h48 => absurd h48 hlead
          nonempty := htne }
      have e := ih hden
      generalize t.foldl (fun v c => v * b + digitVal c) 0 = q at hv e
      have hq : q ≠ 0 := by
        intro hq
        rw [hq, numeral_small (by omega)] at e
        apply hlead
        rw [e]
        cases u <;> rfl
      have hn : b ≤ n := by
        have : 1 * b ≤ q * b := Nat.mul_le_mul_right b (by omega)
        omega
      have h1 : n / b = q := by
        rw [← hv, Nat.add_comm, Nat.add_mul_div_right _ _ (by omega), Nat.div_eq_of_lt hd]
        omega
      have h2 : n % b = d := by
        rw [← hv, Nat.add_comm, Nat.add_mul_mod_self_right, Nat.mod_eq_of_lt hd]
      rw [numeral_big hb hn, h1, h2, ← e, ht, hc]

/-- 2026 and 0xBEEF. -/
example : ∃ rest, ulongToStr 2026 0 64 (List.replicate 64 7) = .ok ([50, 48, 50, 54] ++ 0 :: rest, 4) := by
  obtain ⟨s, rest, h, _, _, hd⟩ := C44_decimal 2026 (List.replicate 64 7) (by simp)
  have : s = [50, 48, 50, 54] := by
    rw [C44_unique (by omega) (by omega) s hd, numeral_big (by omega) (by decide),
      numeral_big (by omega) (by decide), numeral_big (by omega) (by decide),
      numeral_small (by decide)]
    decide
  rw [this] at h
  exact ⟨rest, h⟩

example : ∃ s, Denotes true 16 0xBEEF s ∧ s = nm "BEEF" := by
  refine ⟨_, ?_, rfl⟩
  have h := numeral_denotes (u := true) (b := 16) (by omega) (by omega) 0xBEEF
  have e : numeral true 16 0xBEEF = nm "BEEF" := by
    rw [numeral_big (by omega) (by decide), numeral_big (by omega) (by decide),
      numeral_big (by omega) (by decide), numeral_small (by decide)]
    decide +kernel
  rw [e] at h
  exact h

example : ∃ s rest, slongToStr (-12) 64 (List.replicate 64 7) = .ok (s ++ 0 :: rest, s.length) ∧
    ∃ t, s = 45 :: t := by
  obtain ⟨s, rest, h, _, h2⟩ := C44_signed (-12) (List.replicate 64 7) (by simp) (by decide)
  refine ⟨s, rest, h, ?_⟩
  rcases h2 with ⟨h2, _⟩ | ⟨_, t, ht, _⟩
  · exact absurd h2 (by decide)
  · exact ⟨t, ht⟩

/-- "-12" with its NUL would fit into 4 bytes, but only 5 are enough for the code. -/
example : slongToStr (-12) 4 [1, 2, 3, 4, 5] = .ok ([1, 2, 3, 4, 5], -1) ∧
    slongToStr (-12) 5 [1, 2, 3, 4, 5] = .ok ([45, 49, 50, 0, 5], 3) ∧
    (-12 : BitVec 64).toInt < 0 ∧ (-12 : BitVec 64) ≠ BitVec.intMin 64 := by
  decide

/-! ### C45 and C46 -/

/-- The general form: the rendering, mangled at the multiples of 4096, is written, and its length is
returned.  `extra` are unused arguments; `junk` and `buf` the initial contents of the local arrays. -/
theorem C46_exact {junk : Name → List UInt8} (hj : ∀ f, (junk f).length = 64) {buf : List UInt8}
    (hb : buf.length = 4096) (ps : List Piece) (hok : ∀ p ∈ ps, p.Ok) (extra : List Arg)
    (hl : (render ps).length < 2 ^ 31) :
    ∃ out, printf junk buf (format ps) (args ps ++ extra) = .ok ((render ps).length, out) ∧
      Mangled (render ps) out := by
  obtain ⟨st, h1, h2⟩ := loop_pieces hj extra ps ((format ps).length + 1) hok (by omega)
    (Inv.init hb) (by simpa using hl)
  rw [List.nil_append] at h2
  obtain ⟨g1, g2, g3⟩ := h2.final hl
  refine ⟨st.out ++ st.buf.take st.pos, ?_, g2, ?_⟩
  · unfold printf
    rw [h1]
    simp only
    rw [g1]
  · intro i
    by_cases hi : i < (render ps).length
    · rw [g3 i hi]
      unfold mang
      by_cases hm : i % 4096 = 0
      · rw [if_pos hm, if_pos ⟨hi, hm⟩]
      · rw [if_neg hm, if_neg (fun h => hm h.2)]
    · rw [if_neg (fun h => hi h.1), List.getElem?_eq_none (by omega),
        List.getElem?_eq_none (by omega)]

/-- C45: up to 4096 characters exactly the rendering is written, and its length is returned. -/
theorem C45_printf {junk : Name → List UInt8} (hj : ∀ f, (junk f).length = 64) {buf : List UInt8}
    (hb : buf.length = 4096) (ps : List Piece) (hok : ∀ p ∈ ps, p.Ok) (extra : List Arg)
    (hl : (render ps).length ≤ 4096) :
    printf junk buf (format ps) (args ps ++ extra) = .ok ((render ps).length, render ps) := by
  obtain ⟨out, h1, h2, h3⟩ := C46_exact hj hb ps hok extra (by omega)
  have : out = render ps := by
    apply List.ext_getElem?
    intro i
    rw [h3 i]
    split
    · next h =>
      have : i = 0 := by omega
      rw [this]
    · rfl
  rw [h1, this]

/-- C45: the return value is the length of the rendering whatever its length (as far as an `int`
goes). -/
theorem C45_return {junk : Name → List UInt8} (hj : ∀ f, (junk f).length = 64) {buf : List UInt8}
    (hb : buf.length = 4096) (ps : List Piece) (hok : ∀ p ∈ ps, p.Ok) (extra : List Arg)
    (hl : (render ps).length < 2 ^ 31) :
    ∃ out, printf junk buf (format ps) (args ps ++ extra) = .ok ((render ps).length, out) ∧
      out.length = (render ps).length := by
  obtain ⟨out, h1, h2, _⟩ := C46_exact hj hb ps hok extra hl
  exact ⟨out, h1, h2⟩

/-- The pieces of "[%hhd] %s%%%c%lX" with some arguments. -/
def demoPieces : List Piece :=
  [.text [91], .signed .hh false 0x1F4, .text [93, 32], .str [97, 98], .percent, .chr 33,
    .hex .l true 0xAB]

example : printf (fun _ => List.replicate 64 7) (List.replicate 4096 7)
    (nm "[%hhd] %s%%%c%lX") [.int 0x1F4, .str [97, 98], .int 33, .int 0xAB] =
    .ok (12, nm "[-12] ab%!AB") := by
  have e2 : numeral true 16 0xAB = [65, 66] := by
    rw [numeral_big (by omega) (by decide), numeral_small (by decide)]
    decide
  have e1 : numeral false 10 12 = [49, 50] := by
    rw [numeral_big (by omega) (by decide), numeral_small (by decide)]
    decide
  have hr : render demoPieces = nm "[-12] ab%!AB" := by
    have h1 : integer ((0x1F4 : BitVec 64).setWidth 8).toInt = [45, 49, 50] := by
      have : ((0x1F4 : BitVec 64).setWidth 8).toInt = -12 := by decide
      rw [this]
      unfold integer
      rw [if_neg (by decide)]
      rw [show (-(-12 : Int)).toNat = 12 from rfl, e1]
    have h2 : ((0xAB : BitVec 64).setWidth 64).toNat = 0xAB := by decide
    simp only [render, demoPieces, List.flatMap_cons, List.flatMap_nil, Piece.render, Size.bits, h1,
      h2, e2]
    decide +kernel
  have h := C45_printf (junk := fun _ => List.replicate 64 7) (by simp)
    (buf := List.replicate 4096 7) List.length_replicate demoPieces (by
      intro p hp
      simp only [demoPieces, List.mem_cons, List.not_mem_nil, or_false] at hp
      rcases hp with rfl | rfl | rfl | rfl | rfl | rfl | rfl <;> simp [Piece.Ok, Size.bits] <;> decide)
    [] (by rw [hr]; decide +kernel)
  rw [hr] at h
  have hf : format demoPieces = nm "[%hhd] %s%%%c%lX" := by decide +kernel
  have hlen : (nm "[-12] ab%!AB").length = 12 := by decide +kernel
  rw [hf, hlen] at h
  exact h

/-- "%lq!": an unknown directive is printed back without its size and takes no argument. -/
example : printf (fun _ => List.replicate 64 7) (List.replicate 4096 7) (nm "%lq!") [] =
    .ok (3, nm "%q!") := by
  have h := C45_printf (junk := fun _ => List.replicate 64 7) (by simp)
    (buf := List.replicate 4096 7) List.length_replicate [.other .l 113, .text [33]] (by
      intro p hp
      simp only [List.mem_cons, List.not_mem_nil, or_false] at hp
      rcases hp with rfl | rfl <;> simp [Piece.Ok]) [] (by decide)
  have hf : format [.other .l 113, .text [33]] = nm "%lq!" := by decide +kernel
  have hr : render [.other .l 113, .text [33]] = nm "%q!" := by decide +kernel
  have hlen : (nm "%q!").length = 3 := by decide +kernel
  rw [hf, hr, hlen] at h
  exact h

/-- C46: a message of more than 4096 characters is damaged whenever its character 4096 is not the
same as its first. -/
theorem C46_long_refuted {junk : Name → List UInt8} (hj : ∀ f, (junk f).length = 64)
    {buf : List UInt8} (hb : buf.length = 4096) (ps : List Piece) (hok : ∀ p ∈ ps, p.Ok)
    (extra : List Arg) (hl : (render ps).length < 2 ^ 31) (h4096 : 4096 < (render ps).length)
    (hne : (render ps)[4096]? ≠ (render ps)[0]?) :
    ∃ out, printf junk buf (format ps) (args ps ++ extra) = .ok ((render ps).length, out) ∧
      out ≠ render ps := by
  obtain ⟨out, h1, _, h3⟩ := C46_exact hj hb ps hok extra hl
  refine ⟨out, h1, ?_⟩
  rintro rfl
  have := h3 4096
  rw [if_pos ⟨h4096, by decide⟩] at this
  exact hne this

/-- A message of 5000 characters. -/
example : ∃ out, printf (fun _ => List.replicate 64 7) (List.replicate 4096 7)
    (97 :: List.replicate 4999 98) [] = .ok (5000, out) ∧ out ≠ 97 :: List.replicate 4999 98 := by
  have hr : render [.text (97 :: List.replicate 4999 98)] = 97 :: List.replicate 4999 98 := by
    rw [render, List.flatMap_cons, List.flatMap_nil, List.append_nil, Piece.render]
  have hf : format [.text (97 :: List.replicate 4999 98)] = 97 :: List.replicate 4999 98 := by
    rw [format, List.flatMap_cons, List.flatMap_nil, List.append_nil, Piece.format]
  have hlen : (97 :: List.replicate 4999 (98 : UInt8)).length = 5000 := by
    rw [List.length_cons, List.length_replicate]
  have h := C46_long_refuted (junk := fun _ => List.replicate 64 7) (by simp)
    (buf := List.replicate 4096 7) (List.length_replicate) [.text (97 :: List.replicate 4999 98)] (by
      intro p hp
      rw [List.mem_singleton] at hp
      subst hp
      intro c hc
      rcases List.mem_cons.mp hc with rfl | hc
      · decide
      · rw [List.eq_of_mem_replicate hc]; decide)
    [] (by rw [hr, hlen]; omega) (by rw [hr, hlen]; omega) (by
      rw [hr, List.getElem?_cons_succ, List.getElem?_replicate_of_lt (by omega)]
      show some (98 : UInt8) ≠ some 97
      decide)
  rw [hr, hf, hlen] at h
  exact h

end Gotcha.Printf
