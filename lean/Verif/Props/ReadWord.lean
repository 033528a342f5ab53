import Verif.Proof.Auxv
/-
C69: `read_word` with a buffer of any size.  Whatever the length of the word, nothing is written beyond
the size that is passed, and what is stored is the beginning of the word with its terminator.  The
number returned is that of the characters consumed only if the word is not longer than the buffer.
-/
namespace Gotcha.Props
open Gotcha Gotcha.Auxv Gotcha.Spec.Auxv

/-- The array after a word has been stored: as much of it as fits in front of the terminator, then
what was there before. -/
def Stored (word : Buf) (size : Nat) (w : Name) (word' : Buf) : Prop :=
  word' = (w.take (size - 1)).map some ++ some 0 :: word.drop ((w.take (size - 1)).length + 1)

theorem setCell_at {p : List UInt8} {t : Buf} {x : Option UInt8} {c : UInt8} {k : Nat}
    (hk : k = p.length) :
    setCell (p.map some ++ x :: t) k c = .ok (p.map some ++ some c :: t) := by
  subst hk
  rw [setCell_prefix]
  simp

theorem drop_mid {p : List UInt8} {x : Option UInt8} {t : Buf} :
    (p.map some ++ x :: t).drop (p.length + 1) = t := by
  induction p with
  | nil => rfl
  | cons a p ih => exact ih

theorem wordLoop_any {b : Buf} {size : Nat} (hsz : 0 < size) : ∀ (w : Name) (n i len : Nat) (c : UInt8)
    (rest : List UInt8) (p : List UInt8) (t : Buf), (∀ x ∈ w, ¬ Ends x) → Ends c →
    Holds b i (w ++ c :: rest) → w.length < n → p.length ≤ size → size ≤ p.length + t.length →
    ∃ word', wordLoop b size n i p.length len (some (p.map some ++ t)) =
      .ok (if p.length + w.length ≤ size then len + w.length else size, some word') ∧
      Stored (p.map some ++ t) size (p ++ w) word'
  | [], n + 1, i, len, c, rest, p, t, _, hc, h, _, hp, ht => by
    rw [wordLoop, cell_holds h]
    simp only
    rw [if_pos (ends_iff.mpr hc)]
    by_cases hlt : p.length ≥ size
    · -- the word fills the array: its last character gives way to the terminator
      obtain ⟨q, y, rfl⟩ : ∃ q y, p = q ++ [y] := by
        rcases List.eq_nil_or_concat p with rfl | ⟨q, y, e⟩
        · simp at hlt; omega
        · exact ⟨q, y, by simpa using e⟩
      simp only [List.length_append, List.length_singleton] at hp hlt ⊢
      rw [if_pos (by omega)]
      have e : (q ++ [y]).map some ++ t = q.map some ++ some y :: t := by simp
      rw [e, setCell_at (by omega)]
      refine ⟨q.map some ++ some 0 :: t, by simp [if_pos hp], ?_⟩
      have e2 : (q ++ [y] ++ []).take (size - 1) = q := by
        rw [List.append_nil, List.take_append_of_le_length (by omega), List.take_of_length_le (by omega)]
      unfold Stored
      rw [e2, drop_mid]
    · obtain ⟨x, t1, rfl⟩ : ∃ x t1, t = x :: t1 := by
        cases t with
        | nil => simp at ht; omega
        | cons x t1 => exact ⟨x, t1, rfl⟩
      rw [if_neg hlt, setCell_at rfl]
      refine ⟨p.map some ++ some 0 :: t1, by simp [if_pos hp], ?_⟩
      have e2 : (p ++ []).take (size - 1) = p := by
        rw [List.append_nil, List.take_of_length_le (by omega)]
      unfold Stored
      rw [e2, drop_mid]
  | x :: w, n + 1, i, len, c, rest, p, t, hw, hc, h, hn, hp, ht => by
    simp only [List.length_cons] at hn
    rw [wordLoop, cell_holds h]
    simp only
    rw [if_neg (fun e => hw x (List.mem_cons_self ..) (ends_iff.mp e))]
    by_cases hlt : p.length ≥ size
    · obtain ⟨q, y, rfl⟩ : ∃ q y, p = q ++ [y] := by
        rcases List.eq_nil_or_concat p with rfl | ⟨q, y, e⟩
        · simp at hlt; omega
        · exact ⟨q, y, by simpa using e⟩
      simp only [List.length_append, List.length_singleton] at hp hlt ⊢
      rw [if_pos (by omega), if_pos hsz]
      have e : (q ++ [y]).map some ++ t = q.map some ++ some y :: t := by simp
      rw [e, setCell_at (by omega)]
      refine ⟨q.map some ++ some 0 :: t, by
        rw [if_neg (by rw [List.length_cons]; omega), show q.length + 1 = size by omega], ?_⟩
      have e2 : (q ++ [y] ++ x :: w).take (size - 1) = q := by
        rw [List.append_assoc, List.take_append_of_le_length (by omega), List.take_of_length_le (by omega)]
      unfold Stored
      rw [e2, drop_mid]
    · obtain ⟨y, t1, rfl⟩ : ∃ x t1, t = x :: t1 := by
        cases t with
        | nil => simp at ht; omega
        | cons x t1 => exact ⟨x, t1, rfl⟩
      simp only [List.length_cons] at ht
      obtain ⟨word', g1, g2⟩ := wordLoop_any hsz w n (i + 1) (len + 1) c rest (p ++ [x]) t1
        (fun y hy => hw y (List.mem_cons_of_mem _ hy)) hc h.2 (by omega)
        (by rw [List.length_append, List.length_singleton]; omega)
        (by rw [List.length_append, List.length_singleton]; omega)
      rw [if_neg hlt, setCell_prefix]
      simp only
      rw [List.length_append, List.length_singleton] at g1
      refine ⟨word', ?_, ?_⟩
      · rw [g1, List.length_cons]
        congr 2
        by_cases hle : p.length + (w.length + 1) ≤ size
        · rw [if_pos hle, if_pos (by omega)]; omega
        · rw [if_neg hle, if_neg (by omega)]
      · have e1 : p ++ x :: w = p ++ [x] ++ w := by simp
        unfold Stored at g2 ⊢
        rw [e1, g2]
        congr 2
        by_cases hsm : size - 1 ≤ p.length
        · have hps : size = p.length + 1 := by omega
          have e2 : (p ++ [x] ++ w).take (size - 1) = p := by
            rw [List.append_assoc, List.take_append_of_le_length (by omega),
              List.take_of_length_le (by omega)]
          have e5 : (p ++ [x]).map some ++ t1 = p.map some ++ some x :: t1 := by simp
          rw [e2, e5, drop_mid, drop_mid]
        · have hk : p.length + 1 ≤ ((p ++ [x] ++ w).take (size - 1)).length := by
            rw [List.length_take, List.length_append, List.length_append, List.length_singleton]
            omega
          obtain ⟨k, hk⟩ := Nat.exists_eq_add_of_le hk
          rw [hk]
          have e5 : (p ++ [x]).map some ++ t1 = p.map some ++ some x :: t1 := by simp
          have e6 : ∀ (z : Option UInt8), (p.map some ++ z :: t1).drop (p.length + 1 + k + 1) =
              t1.drop (k + 1) := by
            intro z
            rw [Nat.add_assoc, ← List.drop_drop (i := k + 1), drop_mid]
          rw [e5, e6, e6]

/-- C69.  `read_word` of a word of any length into an array of at least the size that is passed: no
fault, no store beyond that size, the beginning of the word is there with a terminator; the length
returned is right unless the word is longer than the array. -/
theorem C69_read_word {b : Buf} {bl w : Name} {i : Nat} {c : UInt8} {rest : List UInt8} {word : Buf}
    {size : Nat} (hbl : ∀ x ∈ bl, Blank x) (hw : Word w) (hc : Blank c ∨ c = 0)
    (h : Holds b i (bl ++ (w ++ c :: rest))) (hsz : 0 < size) (hwl : size ≤ word.length) :
    ∃ word', readWord b i (some word) size =
      .ok (if w.length ≤ size then bl.length + w.length else size, some word') ∧
      Stored word size w word' := by
  have hl := holds_length h (by simp)
  simp only [List.length_append, List.length_cons] at hl
  obtain ⟨h1, h2⟩ := holds_append.mp h
  obtain ⟨x, w', rfl⟩ : ∃ x w', w = x :: w' := by
    cases w with
    | nil => exact absurd rfl hw.1
    | cons x w' => exact ⟨x, w', rfl⟩
  have hx := hw.2 x (List.mem_cons_self ..)
  unfold readWord
  rw [skipBlanks_spec bl (b.length + 1) i 0 x (w' ++ c :: rest) hbl hx.1 h (by omega), Nat.zero_add]
  simp only
  rw [cell_holds h2]
  simp only
  rw [if_neg hx.2]
  have := wordLoop_any hsz (x :: w') (b.length + 1) (i + bl.length) bl.length c rest [] word
    (word_ends hw.2) hc h2 (by simp only [List.length_cons] at hl ⊢; omega) (by simp)
    (by simpa using hwl)
  simpa using this

/-- What the caller reads back from the array is the word cut to `size - 1` characters. -/
theorem C69_read_back {word word' : Buf} {size : Nat} {w : Name} (hw : Word w)
    (h : Stored word size w word') :
    bufStr word' (word'.length + 1) 0 = .ok (w.take (size - 1)) := by
  have h' : word' = ((w.take (size - 1)) ++ [0]).map some ++
      word.drop ((w.take (size - 1)).length + 1) := by
    rw [h]; simp
  refine bufStr_spec _ _ _ _ (fun c hc => (hw.2 c (List.mem_of_mem_take hc)).2)
    (by rw [h']; exact holds_prefix0) ?_
  rw [h']
  simp
  omega

/-- C69.  With an array of size 0 nothing is stored (and 0 returned, so that the caller does not move
on). -/
theorem C69_size_zero {b : Buf} {bl w : Name} {i : Nat} {c : UInt8} {rest : List UInt8} {word : Buf}
    (hbl : ∀ x ∈ bl, Blank x) (hw : Word w) (h : Holds b i (bl ++ (w ++ c :: rest))) :
    readWord b i (some word) 0 = .ok (0, some word) := by
  have hl := holds_length h (by simp)
  simp only [List.length_append, List.length_cons] at hl
  obtain ⟨h1, h2⟩ := holds_append.mp h
  obtain ⟨x, w', rfl⟩ : ∃ x w', w = x :: w' := by
    cases w with
    | nil => exact absurd rfl hw.1
    | cons x w' => exact ⟨x, w', rfl⟩
  have hx := hw.2 x (List.mem_cons_self ..)
  unfold readWord
  rw [skipBlanks_spec bl (b.length + 1) i 0 x (w' ++ c :: rest) hbl hx.1 h (by omega), Nat.zero_add]
  simp only
  rw [cell_holds h2]
  simp only
  rw [if_neg hx.2, wordLoop, cell_holds h2]
  simp only
  rw [if_neg (fun e => word_ends hw.2 x (List.mem_cons_self ..) (ends_iff.mp e)),
    if_pos (Nat.zero_le _), if_neg (Nat.lt_irrefl 0)]

/-- An index outside the array faults. -/
theorem setCell_outside {b : Buf} {i : Nat} {c : UInt8} (h : b.length ≤ i) :
    setCell b i c = .error .outOfBounds := by
  unfold setCell
  exact if_neg (by omega)

theorem wordLoop_overrun {b : Buf} {size : Nat} : ∀ (w : Name) (n i len : Nat) (c : UInt8)
    (rest : List UInt8) (p : List UInt8) (t : Buf), (∀ x ∈ w, ¬ Ends x) → Ends c →
    Holds b i (w ++ c :: rest) → w.length < n → p.length + t.length < size → t.length ≤ w.length →
    wordLoop b size n i p.length len (some (p.map some ++ t)) = .error .outOfBounds
  | [], n + 1, i, len, c, rest, p, t, _, hc, h, _, hsz, ht => by
    rw [wordLoop, cell_holds h]
    simp only
    rw [if_pos (ends_iff.mpr hc)]
    simp only [List.length_nil, Nat.le_zero, List.length_eq_zero_iff] at ht
    subst ht
    rw [if_neg (by simp at hsz; omega), setCell_outside (by simp)]
  | x :: w, n + 1, i, len, c, rest, p, t, hw, hc, h, hn, hsz, ht => by
    rw [wordLoop, cell_holds h]
    simp only
    rw [if_neg (fun e => hw x (List.mem_cons_self ..) (ends_iff.mp e)), if_neg (by omega)]
    cases t with
    | nil => rw [setCell_outside (by simp)]
    | cons y t =>
      simp only [List.length_cons] at ht hsz hn
      rw [setCell_prefix]
      have := wordLoop_overrun (size := size) w n (i + 1) (len + 1) c rest (p ++ [x]) t
        (fun y hy => hw y (List.mem_cons_of_mem _ hy)) hc h.2 (by omega)
        (by simp only [List.length_append, List.length_singleton]; omega) (by omega)
      simp only [List.length_append, List.length_singleton] at this
      exact this

/-- C69.  The size passed is all that protects the array: if it is too large and the word does not fit
with its terminator, the array is overrun. -/
theorem C69_overrun {b : Buf} {bl w : Name} {i : Nat} {c : UInt8} {rest : List UInt8} {word : Buf}
    {size : Nat} (hbl : ∀ x ∈ bl, Blank x) (hw : Word w) (hc : Blank c ∨ c = 0)
    (h : Holds b i (bl ++ (w ++ c :: rest))) (hsz : word.length < size) (hwl : word.length ≤ w.length) :
    readWord b i (some word) size = .error .outOfBounds := by
  have hl := holds_length h (by simp)
  simp only [List.length_append, List.length_cons] at hl
  obtain ⟨h1, h2⟩ := holds_append.mp h
  obtain ⟨x, w', rfl⟩ : ∃ x w', w = x :: w' := by
    cases w with
    | nil => exact absurd rfl hw.1
    | cons x w' => exact ⟨x, w', rfl⟩
  have hx := hw.2 x (List.mem_cons_self ..)
  unfold readWord
  rw [skipBlanks_spec bl (b.length + 1) i 0 x (w' ++ c :: rest) hbl hx.1 h (by omega), Nat.zero_add]
  simp only
  rw [cell_holds h2]
  simp only
  rw [if_neg hx.2]
  have := wordLoop_overrun (x :: w') (b.length + 1) (i + bl.length) bl.length c rest [] word
    (word_ends hw.2) hc h2 (by simp only [List.length_cons] at hl ⊢; omega) (by simpa using hsz) hwl
  simpa using this

/-- "ab" into two bytes that are said to be eight. -/
example : readWord [some 97, some 98, some 0] 0 (some [none, none]) 8 = .error .outOfBounds :=
  C69_overrun (bl := []) (w := [97, 98]) (c := 0) (rest := []) (List.forall_mem_nil _)
    ⟨by simp, by
      intro c hc
      simp only [List.mem_cons, List.not_mem_nil, or_false] at hc
      rcases hc with rfl | rfl <;> (unfold Blank; decide)⟩ (Or.inr rfl)
    (holds_prefix0 (s := [97, 98, 0]) (t := [])) (by decide) (by decide)

/-- " abcdef" into four bytes: "abc" is stored, and 4 returned although 7 characters were passed. -/
example : ∃ word', readWord ((nm " abcdef").map some ++ [some 0]) 0 (some (List.replicate 6 none)) 4 =
    .ok (4, some word') ∧ bufStr word' 7 0 = .ok (nm "abc") := by
  have hword : Word (nm "abcdef") := by
    refine ⟨by decide +kernel, ?_⟩
    intro c hc
    have e : nm "abcdef" = [97, 98, 99, 100, 101, 102] := by decide +kernel
    rw [e] at hc
    simp only [List.mem_cons, List.not_mem_nil, or_false] at hc
    rcases hc with rfl | rfl | rfl | rfl | rfl | rfl <;> (unfold Blank; decide)
  obtain ⟨word', g1, g2⟩ := C69_read_word (bl := [32]) (w := nm "abcdef") (c := 0) (rest := []) (i := 0)
    (b := (nm " abcdef").map some ++ [some 0]) (word := List.replicate 6 none) (size := 4)
    (by intro x hx; rw [List.mem_singleton] at hx; exact Or.inl hx) hword (Or.inr rfl)
    (by
      have := holds_prefix0 (s := nm " abcdef" ++ [0]) (t := [])
      have e : nm " abcdef" ++ [0] = [32] ++ (nm "abcdef" ++ 0 :: []) := by decide +kernel
      rw [e] at this
      have e2 : (nm " abcdef").map some ++ [some 0] =
        ([32] ++ (nm "abcdef" ++ 0 :: [])).map some ++ [] := by decide +kernel
      rw [e2]
      exact this) (by decide) (by simp)
  have e : (if (nm "abcdef").length ≤ 4 then [(32 : UInt8)].length + (nm "abcdef").length else 4) = 4 := by
    decide +kernel
  rw [e] at g1
  refine ⟨word', g1, ?_⟩
  have := C69_read_back hword g2
  have hlen : word'.length = 6 := by
    rw [g2]
    decide +kernel
  rw [hlen] at this
  rw [this]
  congr 1
  decide +kernel

/-- "ab" into nothing: no byte is read or written. -/
example : readWord [some 97, some 98, some 0] 0 (some [some 7]) 0 = .ok (0, some [some 7]) :=
  C69_size_zero (bl := []) (w := [97, 98]) (c := 0) (rest := []) (List.forall_mem_nil _)
    ⟨by simp, by
      intro c hc
      simp only [List.mem_cons, List.not_mem_nil, or_false] at hc
      rcases hc with rfl | rfl <;> (unfold Blank; decide)⟩
    (holds_prefix0 (s := [97, 98, 0]) (t := []))

end Gotcha.Props
