import Verif.Props.Printf
import Verif.Proof.Auxv
/-
C71: `read_hex` reads exactly the longest run of hexadecimal digits, and reads back what
`gotcha_int_printf` prints for `%lx` and `%lX`.
-/
namespace Gotcha.Props
open Gotcha Gotcha.Auxv Gotcha.Spec.Auxv Gotcha.Spec.Printf Gotcha.Printf

/-- One of the characters 0-9, a-f, A-F. -/
def IsHex (c : UInt8) : Prop := c ∈ nm "0123456789abcdefABCDEF"

/-- What such a character stands for, read off a table. -/
def hexTable (c : UInt8) : Nat :=
  if c ∈ nm "0123456789abcdef" then (nm "0123456789abcdef").idxOf c
  else (nm "0123456789ABCDEF").idxOf c

/-- The number a run of digits stands for. -/
def hexNumber (w : Name) : Nat := w.foldl (fun v c => 16 * v + hexTable c) 0

theorem hexDigit_all : ∀ n : Fin 256, hexDigit (UInt8.ofNat n.val) =
    if UInt8.ofNat n.val ∈ nm "0123456789abcdefABCDEF" then some (hexTable (UInt8.ofNat n.val))
    else none := by
  decide +kernel

theorem hexDigit_eq (c : UInt8) :
    hexDigit c = if c ∈ nm "0123456789abcdefABCDEF" then some (hexTable c) else none := by
  have := hexDigit_all ⟨c.toNat, c.toNat_lt⟩
  simpa using this

theorem hexDigit_in {c : UInt8} (h : IsHex c) : hexDigit c = some (hexTable c) := by
  rw [hexDigit_eq]; exact if_pos h

theorem hexDigit_out {c : UInt8} (h : ¬ IsHex c) : hexDigit c = none := by
  rw [hexDigit_eq]; exact if_neg h

theorem readHexLoop_run {b : Buf} : ∀ (w : Name) (n i v len : Nat) (c : UInt8) (rest : List UInt8),
    (∀ x ∈ w, IsHex x) → ¬ IsHex c → Holds b i (w ++ c :: rest) → w.length < n →
    readHexLoop b n i (BitVec.ofNat 64 v) len =
      .ok (BitVec.ofNat 64 (w.foldl (fun v c => 16 * v + hexTable c) v), len + w.length)
  | [], n + 1, i, v, len, c, rest, _, hc, h, _ => by
    rw [readHexLoop, cell_holds h]
    simp only
    rw [hexDigit_out hc]
    rfl
  | x :: w, n + 1, i, v, len, c, rest, hw, hc, h, hn => by
    have ih := readHexLoop_run w n (i + 1) (16 * v + hexTable x) (len + 1) c rest
      (fun y hy => hw y (List.mem_cons_of_mem _ hy)) hc h.2 (by simpa using hn)
    rw [readHexLoop, cell_holds h]
    simp only
    rw [hexDigit_in (hw x (List.mem_cons_self ..))]
    simp only
    have e : BitVec.ofNat 64 v * 16 + BitVec.ofNat 64 (hexTable x) =
        BitVec.ofNat 64 (16 * v + hexTable x) := by
      rw [BitVec.ofNat_add, Nat.mul_comm, BitVec.ofNat_mul]
      rfl
    rw [e, ih, List.foldl_cons, List.length_cons, Nat.add_assoc, Nat.add_comm 1]

/-- C71.  From any position of any array `read_hex` takes the longest run of digits, whatever follows
it, and delivers its length and the number modulo 2^64. -/
theorem C71_read_hex {b : Buf} {w : Name} {i : Nat} {c : UInt8} {rest : List UInt8}
    (hw : ∀ x ∈ w, IsHex x) (hc : ¬ IsHex c) (h : Holds b i (w ++ c :: rest)) :
    readHex b i = .ok (BitVec.ofNat 64 (hexNumber w), w.length) := by
  have hl := holds_length h (by simp)
  rw [List.length_append, List.length_cons] at hl
  have := readHexLoop_run w (b.length + 1) i 0 0 c rest hw hc h (by omega)
  rw [Nat.zero_add] at this
  exact this

/-- C71.  Without anything that ends the digits, it leaves the array. -/
theorem C71_unterminated {b : Buf} {w : Name} {i : Nat} (hw : ∀ x ∈ w, IsHex x)
    (h : b = (List.replicate i none) ++ w.map some) :
    readHex b i = .error .outOfBounds := by
  have key : ∀ (w : Name) (n i : Nat) (v : BitVec 64) (len : Nat), (∀ x ∈ w, IsHex x) → w.length < n →
      Holds b i w → b.length = i + w.length → readHexLoop b n i v len = .error .outOfBounds := by
    intro w
    induction w with
    | nil =>
      intro n i v len _ hn _ hlen
      obtain ⟨n, rfl⟩ : ∃ k, n = k + 1 := ⟨n - 1, by simp at hn; omega⟩
      rw [readHexLoop]
      unfold cell
      rw [List.getElem?_eq_none (by simp at hlen; omega)]
    | cons x w ih =>
      intro n i v len hw hn hh hlen
      obtain ⟨n, rfl⟩ : ∃ k, n = k + 1 := ⟨n - 1, by simp at hn; omega⟩
      rw [readHexLoop, cell_holds hh]
      simp only
      rw [hexDigit_in (hw x (List.mem_cons_self ..))]
      exact ih n (i + 1) _ _ (fun y hy => hw y (List.mem_cons_of_mem _ hy)) (by simpa using hn) hh.2
        (by simp at hlen; omega)
  refine key w _ i _ _ hw ?_ ?_ ?_
  · rw [h]; simp; omega
  · have := holds_prefix (s := w) (u := List.replicate i none) (t := [])
    rw [List.append_nil, List.length_replicate, ← h] at this
    exact this
  · rw [h]; simp

theorem digit_table : ∀ (u : Bool) (d : Fin 16),
    digitChar u d.val ∈ nm "0123456789abcdefABCDEF" ∧ hexTable (digitChar u d.val) = d.val := by
  decide +kernel

theorem hexTable_char {u : Bool} {d : Nat} (h : d < 16) :
    hexTable (digitChar u d) = digitVal (digitChar u d) := by
  have h1 := hexDigit_eq (digitChar u d)
  rw [if_pos (digit_table u ⟨d, h⟩).1, hexDigit_char h] at h1
  exact (Option.some.inj h1).symm

/-- C71.  Every 64-bit number printed by `ulong_to_hexstr`, in either case of letters, is read back. -/
theorem C71_read_back (upper : Bool) (num : BitVec 64) (arr : List UInt8) (ha : arr.length = 64) :
    ∃ arr' n, ulongToHexstr num 0 64 upper arr = .ok (arr', n) ∧ 0 < n ∧
      ∃ k : Nat, n = k ∧ readHex (arr'.map some) 0 = .ok (num, k) := by
  obtain ⟨s, rest, h1, _, _, h4⟩ := C44_hex upper num arr ha
  have hs : 0 < s.length := List.length_pos_iff.mpr h4.nonempty
  refine ⟨_, _, h1, by omega, s.length, rfl, ?_⟩
  have hh : Holds ((s ++ 0 :: rest).map some) 0 (s ++ 0 :: rest) := by
    have := holds_prefix0 (s := s ++ 0 :: rest) (t := [])
    rwa [List.append_nil] at this
  have h0 : ¬ IsHex 0 := by
    unfold IsHex
    decide +kernel
  have hx : ∀ x ∈ s, IsHex x := by
    intro x hx
    obtain ⟨d, hd, rfl⟩ := h4.digits x hx
    exact (digit_table upper ⟨d, hd⟩).1
  rw [C71_read_hex hx h0 hh]
  have key : ∀ (t : Name) (v : Nat), (∀ x ∈ t, ∃ d < 16, x = digitChar upper d) →
      t.foldl (fun v c => 16 * v + hexTable c) v = t.foldl (fun v c => v * 16 + digitVal c) v := by
    intro t
    induction t with
    | nil => intro v _; rfl
    | cons x t ih =>
      intro v ht
      obtain ⟨d, hd, rfl⟩ := ht x (List.mem_cons_self ..)
      rw [List.foldl_cons, List.foldl_cons, ih _ (fun y hy => ht y (List.mem_cons_of_mem _ hy)),
        hexTable_char hd, Nat.mul_comm]
  have e : hexNumber s = num.toNat := by
    unfold hexNumber
    rw [key s 0 h4.digits, h4.value]
  rw [e, BitVec.ofNat_toNat, BitVec.setWidth_eq]

/-- "7ffeG": two characters of the run are letters, the `G` ends it. -/
example : readHex ((nm "7ffeG").map some) 0 = .ok (0x7ffe, 4) := by
  have := C71_read_hex (b := (nm "7ffeG").map some) (w := nm "7ffe") (c := 71) (rest := []) (i := 0)
    (by
      intro x hx
      have e : nm "7ffe" = [55, 102, 102, 101] := by decide +kernel
      rw [e] at hx
      simp only [List.mem_cons, List.not_mem_nil, or_false] at hx
      unfold IsHex
      rcases hx with rfl | rfl | rfl | rfl <;> decide +kernel)
    (by unfold IsHex; decide +kernel)
    (by
      have := holds_prefix0 (s := nm "7ffeG") (t := [])
      rw [List.append_nil] at this
      have e : nm "7ffe" ++ 71 :: [] = nm "7ffeG" := by decide +kernel
      rw [e]
      exact this)
  rw [this]
  decide +kernel

example : readHex [none, some 97, some 98] 1 = .error .outOfBounds :=
  C71_unterminated (w := [97, 98]) (i := 1)
    (by intro x hx; simp only [List.mem_cons, List.not_mem_nil, or_false] at hx; unfold IsHex
        rcases hx with rfl | rfl <;> decide +kernel) rfl

end Gotcha.Props
