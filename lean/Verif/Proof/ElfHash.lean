import Verif.Proof.Elf
import Mathlib.Tactic.IntervalCases
/-
The two string hash functions of src/elf_ops.c against the ones of the file formats.
-/
namespace Gotcha.Elf
open Gotcha Spec

theorem charSext_ascii {c : UInt8} (h : c.toNat < 128) : charSext c = BitVec.ofNat 32 c.toNat := by
  unfold charSext
  rw [BitVec.signExtend_eq_setWidth_of_msb_false]
  · apply BitVec.eq_of_toNat_eq
    simp only [BitVec.toNat_setWidth, BitVec.toNat_ofNat]
    omega
  · rw [BitVec.msb_eq_decide]
    simp only [BitVec.toNat_ofNat, decide_eq_false_iff_not]
    omega

theorem charSext_high {c : UInt8} (h : ¬ c.toNat < 128) :
    charSext c = BitVec.ofNat 32 (2 ^ 32 + c.toNat - 256) := by
  have h8 : c.toNat < 256 := c.toNat_lt
  unfold charSext
  rw [BitVec.signExtend_eq_not_setWidth_not_of_msb_true]
  · apply BitVec.eq_of_toNat_eq
    simp only [BitVec.toNat_setWidth, BitVec.toNat_ofNat, BitVec.toNat_not]
    omega
  · rw [BitVec.msb_eq_decide]
    simp only [BitVec.toNat_ofNat, decide_eq_true_eq]
    omega

theorem gnuHashFunc_eq (s : Name) : (gnuHashFunc s).toNat = signedHash s := by
  unfold gnuHashFunc signedHash
  have key : ∀ (s : Name) (x : BitVec 32) (y : Nat), x.toNat = y →
      (s.foldl (fun h c => h * 33 + charSext c) x).toNat =
        s.foldl (fun h c => (h * 33 + if c.toNat < 128 then c.toNat else 2 ^ 32 + c.toNat - 256) %
          2 ^ 32) y := by
    intro s
    induction s with
    | nil => intro x y h; exact h
    | cons c s ih =>
      intro x y hxy
      rw [List.foldl_cons, List.foldl_cons]
      apply ih _ _
      have h8 : c.toNat < 256 := c.toNat_lt
      by_cases h1 : c.toNat < 128
      · rw [charSext_ascii h1, BitVec.toNat_add, BitVec.toNat_mul, BitVec.toNat_ofNat, hxy, if_pos h1]
        simp only [show (33 : BitVec 32).toNat = 33 from rfl]
        omega
      · rw [charSext_high h1, BitVec.toNat_add, BitVec.toNat_mul, BitVec.toNat_ofNat, hxy, if_neg h1]
        simp only [show (33 : BitVec 32).toNat = 33 from rfl]
        omega
  exact key s _ _ rfl

theorem signedHash_ascii {s : Name} (h : Ascii s) : signedHash s = gnuHash s := by
  unfold signedHash gnuHash
  generalize 5381 = x
  induction s generalizing x with
  | nil => rfl
  | cons c s ih =>
    rw [List.foldl_cons, List.foldl_cons, if_pos (h c (List.mem_cons_self ..))]
    exact ih (fun c' hc' => h c' (List.mem_cons_of_mem _ hc')) _

/-- The two hashes differ by 256 times a sum of powers of 33, one for each high byte. -/
theorem signedHash_diff (s : Name) : ∃ K, (signedHash s + 256 * K) % 2 ^ 32 = gnuHash s % 2 ^ 32 ∧
    K % 32 = highBytes s % 32 := by
  have key : ∀ (s : Name) (x y K : Nat), (x + 256 * K) % 2 ^ 32 = y % 2 ^ 32 →
      ∃ K', (s.foldl (fun h c => (h * 33 + if c.toNat < 128 then c.toNat else
          2 ^ 32 + c.toNat - 256) % 2 ^ 32) x + 256 * K') % 2 ^ 32 =
        (s.foldl (fun h c => (h * 33 + c.toNat) % 2 ^ 32) y) % 2 ^ 32 ∧
        K' % 32 = (K + highBytes s) % 32 := by
    intro s
    induction s with
    | nil => intro x y K h; exact ⟨K, h, by simp [highBytes]⟩
    | cons c s ih =>
      intro x y K h
      rw [List.foldl_cons, List.foldl_cons]
      have h8 : c.toNat < 256 := c.toNat_lt
      by_cases h1 : c.toNat < 128
      · rw [if_pos h1]
        obtain ⟨K', e1, e2⟩ := ih ((x * 33 + c.toNat) % 2 ^ 32) ((y * 33 + c.toNat) % 2 ^ 32) (33 * K)
          (by omega)
        refine ⟨K', e1, ?_⟩
        rw [e2, highBytes, highBytes, List.filter_cons_of_neg (by simpa using h1)]
        omega
      · rw [if_neg h1]
        obtain ⟨K', e1, e2⟩ := ih ((x * 33 + (2 ^ 32 + c.toNat - 256)) % 2 ^ 32)
          ((y * 33 + c.toNat) % 2 ^ 32) (33 * K + 1) (by omega)
        refine ⟨K', e1, ?_⟩
        rw [e2, highBytes, highBytes, List.filter_cons_of_pos (by simp; omega), List.length_cons]
        omega
  obtain ⟨K, h1, h2⟩ := key s 5381 5381 0 rfl
  exact ⟨K, h1, by simpa using h2⟩

theorem gnuHash_lt (s : Name) : gnuHash s < 2 ^ 32 := by
  unfold gnuHash
  have key : ∀ (s : Name) (x : Nat), x < 2 ^ 32 →
      s.foldl (fun h c => (h * 33 + c.toNat) % 2 ^ 32) x < 2 ^ 32 := by
    intro s
    induction s with
    | nil => intro x h; exact h
    | cons c s ih => intro x _; rw [List.foldl_cons]; exact ih _ (by omega)
  exact key s _ (by omega)

theorem signedHash_ne {s : Name} (h : highBytes s % 32 ≠ 0) :
    signedHash s / 2 ≠ gnuHash s / 2 := by
  obtain ⟨K, h1, h2⟩ := signedHash_diff s
  have h3 := gnuHash_lt s
  have h4 : signedHash s < 2 ^ 32 := by rw [← gnuHashFunc_eq]; exact BitVec.isLt _
  omega

theorem elfStep_bits (t : BitVec 32) :
    (if t &&& 0xf0000000#32 ≠ 0 then t ^^^ ((t &&& 0xf0000000#32) >>> 24) else t) &&&
        ~~~(t &&& 0xf0000000#32) =
      (t &&& 0x0fffffff#32) ^^^ ((t >>> 28) <<< 4) := by
  have h1 : (if t &&& 0xf0000000#32 ≠ 0 then t ^^^ ((t &&& 0xf0000000#32) >>> 24) else t) =
      t ^^^ ((t &&& 0xf0000000#32) >>> 24) := by
    split
    · rfl
    · rename_i h
      have h : t &&& 0xf0000000#32 = 0 := by simpa using h
      rw [h]
      simp
  rw [h1]
  have hhi : ∀ i, i < 32 → (0xf0000000#32).getLsbD i = decide (28 ≤ i) := by decide
  have hlo : ∀ i, i < 32 → (0x0fffffff#32).getLsbD i = decide (i < 28) := by decide
  apply BitVec.eq_of_getLsbD_eq
  intro i hi
  simp only [BitVec.getLsbD_and, BitVec.getLsbD_xor, BitVec.getLsbD_not, BitVec.getLsbD_ushiftRight,
    BitVec.getLsbD_shiftLeft, hhi i hi, hlo i hi]
  by_cases h28 : 28 ≤ i
  · have h2 : t.getLsbD (24 + i) = false := BitVec.getLsbD_of_ge _ _ (by omega)
    have h3 : t.getLsbD (28 + (i - 4)) = false := BitVec.getLsbD_of_ge _ _ (by omega)
    rw [h2, h3]
    simp [h28, Nat.not_lt.2 h28, hi]
  · by_cases h4 : i < 4
    · have h5 : (0xf0000000#32).getLsbD (24 + i) = false := by
        rw [hhi _ (by omega)]; simp; omega
      rw [h5]
      simp [h4, h28, hi, Nat.lt_of_not_le h28]
    · by_cases h8 : i < 8
      · rw [hhi (24 + i) (by omega)]
        have e1 : 28 + (i - 4) = 24 + i := by omega
        have e2 : (28 ≤ 24 + i) := by omega
        simp [h4, h28, hi, Nat.lt_of_not_le h28, e1, e2]
      · have h2 : t.getLsbD (24 + i) = false := BitVec.getLsbD_of_ge _ _ (by omega)
        have h3 : t.getLsbD (28 + (i - 4)) = false := BitVec.getLsbD_of_ge _ _ (by omega)
        rw [h2, h3]
        simp [h28, hi, Nat.lt_of_not_le h28]

theorem elfHashFunc_eq (s : Name) : (elfHashFunc s).toNat = sysvHash s := by
  unfold elfHashFunc sysvHash
  have key : ∀ (s : Name) (x : BitVec 32) (y : Nat), x.toNat = y →
      (s.foldl elfHashStep x).toNat = s.foldl (fun h c =>
        let t := (h * 16 + c.toNat) % 2 ^ 32
        (t % 2 ^ 28) ^^^ (t / 2 ^ 28 * 16)) y := by
    intro s
    induction s with
    | nil => intro x y h; exact h
    | cons c s ih =>
      intro x y hxy
      rw [List.foldl_cons, List.foldl_cons]
      apply ih
      unfold elfHashStep
      simp only
      have ht : ((x <<< 4) + BitVec.ofNat 32 c.toNat).toNat = (y * 16 + c.toNat) % 2 ^ 32 := by
        rw [BitVec.toNat_add, BitVec.toNat_shiftLeft, BitVec.toNat_ofNat, hxy, Nat.shiftLeft_eq]
        have := c.toNat_lt
        omega
      erw [elfStep_bits]
      rw [BitVec.toNat_xor, BitVec.toNat_and, BitVec.toNat_shiftLeft,
        BitVec.toNat_ushiftRight, ht, Nat.shiftRight_eq_div_pow, Nat.shiftLeft_eq]
      rw [show (0x0fffffff#32).toNat = 2 ^ 28 - 1 from rfl, Nat.and_two_pow_sub_one_eq_mod]
      congr 1
      have : (y * 16 + c.toNat) % 2 ^ 32 < 2 ^ 32 := Nat.mod_lt _ (by decide)
      generalize (y * 16 + c.toNat) % 2 ^ 32 = t at this
      omega
  exact key s _ _ rfl

theorem pick_mem {vs : Bool} {m : Nat → Bool} {ver : Nat → Nat} (L : List Nat) :
    ∀ (l : Option Nat) (v : Nat) (i : Nat), pick vs m ver L l v = some i → i ∈ L ∨ l = some i := by
  induction L with
  | nil => intro l v i h; exact Or.inr h
  | cons j L ih =>
    intro l v i h
    rw [pick] at h
    split at h
    · split at h
      · split at h
        · rcases ih _ _ _ h with h1 | h1
          · exact Or.inl (List.mem_cons_of_mem _ h1)
          · cases h1; exact Or.inl (List.mem_cons_self ..)
        · rcases ih _ _ _ h with h1 | h1
          · exact Or.inl (List.mem_cons_of_mem _ h1)
          · exact Or.inr h1
      · cases h; exact Or.inl (List.mem_cons_self ..)
    · rcases ih _ _ _ h with h1 | h1
      · exact Or.inl (List.mem_cons_of_mem _ h1)
      · exact Or.inr h1

theorem exported_step {img : Image} {d : DynInfo} {syms : List DynSym} (hs : Syms img d syms) {r : Option (BitVec 32)}
    (hr : ∀ w, r = some w → w.toNat < syms.length) (lAddr : Addr) :
    (match (Except.ok r : Except Fault (Option (BitVec 32))) with
      | .error f => Except.error f
      | .ok none => Except.ok none
      | .ok (some i) =>
        match img.sym (at' d.symtab 24 i.toNat) with
        | none => Except.error Fault.outOfBounds
        | some s => if s.size > 0 then Except.ok (some (s.value + lAddr)) else Except.ok none) =
      .ok (addrOf syms lAddr r) := by
  cases r with
  | none => rfl
  | some w =>
    have hlt := hr w rfl
    obtain ⟨s, h1, h2, h3, -⟩ := hs.sym _ _ (List.getElem?_eq_getElem hlt)
    simp only [at', h1, addrOf, Option.bind_some, List.getElem?_eq_getElem hlt, ← h2, ← h3]
    by_cases hz : s.size = 0
    · rw [if_pos hz, if_neg]; rw [hz]; decide
    · rw [if_neg hz, if_pos]
      rw [gt_iff_lt, BitVec.lt_def]
      have : s.size.toNat ≠ 0 := fun hc => hz (BitVec.eq_of_toNat_eq hc)
      show 0 < _
      omega

end Gotcha.Elf
