import Verif.Spec.Auxv
import Verif.Proof.Number
import Mathlib.Tactic.IntervalCases
/-
Lemmas about the parsing of /proc/self/auxv and /proc/self/maps.
-/
namespace Gotcha.Auxv
open Gotcha Gotcha.Spec.Auxv Gotcha.Spec.Printf

/-- The array `b` holds the bytes `s` from index `i` on. -/
def Holds (b : Buf) : Nat → List UInt8 → Prop
  | _, [] => True
  | i, c :: s => b[i]? = some (some c) ∧ Holds b (i + 1) s

theorem holds_append {b : Buf} : ∀ {s t : List UInt8} {i : Nat},
    Holds b i (s ++ t) ↔ Holds b i s ∧ Holds b (i + s.length) t
  | [], t, i => by simp [Holds]
  | c :: s, t, i => by
    simp only [List.cons_append, Holds, List.length_cons]
    rw [holds_append (s := s), and_assoc, Nat.add_assoc, Nat.add_comm 1]

theorem holds_prefix : ∀ {s : List UInt8} {u t : Buf}, Holds (u ++ s.map some ++ t) u.length s
  | [], _, _ => trivial
  | c :: s, u, t => by
    refine ⟨by simp, ?_⟩
    have := holds_prefix (s := s) (u := u ++ [some c]) (t := t)
    simpa using this

theorem holds_prefix0 {s : List UInt8} {t : Buf} : Holds (s.map some ++ t) 0 s := by
  have := holds_prefix (s := s) (u := []) (t := t)
  simpa using this

theorem holds_length {b : Buf} : ∀ {s : List UInt8} {i : Nat}, Holds b i s → s ≠ [] →
    i + s.length ≤ b.length
  | [c], i, h, _ => by
    have := (List.getElem?_eq_some_iff.mp h.1).1
    simp; omega
  | c :: d :: s, i, h, _ => by
    have := holds_length h.2 (by simp)
    simp only [List.length_cons] at this ⊢
    omega

theorem cell_holds {b : Buf} {i : Nat} {c : UInt8} {s : List UInt8} (h : Holds b i (c :: s)) :
    cell b i = .ok c := by
  unfold cell
  rw [h.1]

theorem cells_holds {b : Buf} : ∀ {s : List UInt8} {i : Nat}, Holds b i s →
    cells b i s.length = .ok s
  | [], _, _ => rfl
  | c :: s, i, h => by
    rw [List.length_cons, cells, cell_holds h, cells_holds h.2]

/-! ### The auxiliary vector -/

theorem leBytes_length : ∀ (n v : Nat), (leBytes n v).length = n
  | 0, _ => rfl
  | n + 1, v => by rw [leBytes, List.length_cons, leBytes_length]

theorem leNat_leBytes : ∀ (n v : Nat), v < 256 ^ n → leNat (leBytes n v) = v
  | 0, v, h => by
    have : v = 0 := by simpa using h
    subst this
    rfl
  | n + 1, v, h => by
    have ih := leNat_leBytes n (v / 256) (by
      rw [Nat.pow_succ] at h
      exact Nat.div_lt_of_lt_mul (by rwa [Nat.mul_comm] at h))
    rw [leBytes]
    unfold leNat at ih ⊢
    rw [List.foldr_cons, ih, UInt8.toNat_ofNat']
    omega

theorem entryBytes_length (e : Nat × Nat) : (entryBytes e).length = 16 := by
  unfold entryBytes
  rw [List.length_append, leBytes_length, leBytes_length]

theorem entries_length : ∀ (es : List (Nat × Nat)), (es.flatMap entryBytes).length = 16 * es.length
  | [] => rfl
  | e :: es => by
    rw [List.flatMap_cons, List.length_append, entryBytes_length, entries_length es, List.length_cons]
    omega

/-- What the scan computes from entries. -/
def fold (es : List (Nat × Nat)) (st : AuxState) : AuxState :=
  es.foldl (fun st e => if e.1 = 33 then { st with ehdr := e.2 }
    else if e.1 = 6 then { st with pagesz := e.2 % 2 ^ 32 } else st) st

theorem cells8 {b : Buf} {i v : Nat} (h : Holds b i (leBytes 8 v)) : cells b i 8 = .ok (leBytes 8 v) := by
  have := cells_holds h
  rwa [leBytes_length] at this

theorem scan_spec {b : Buf} : ∀ (es : List (Nat × Nat)) (n i : Nat) (st : AuxState), EntriesOk es →
    es.length < n → Holds b (16 * i) (es.flatMap entryBytes ++ leBytes 8 0) →
    scan b n i st = .ok (fold es st)
  | [], n + 1, i, st, _, _, h => by
    rw [scan, cells8 h]
    simp only
    rw [leNat_leBytes 8 0 (by decide), if_pos rfl]
    rfl
  | e :: es, n + 1, i, st, hok, hn, h => by
    obtain ⟨h0, h1, h2⟩ := hok e (List.mem_cons_self ..)
    rw [List.flatMap_cons, List.append_assoc, holds_append, entryBytes_length] at h
    obtain ⟨ha, hb⟩ := h
    unfold entryBytes at ha
    rw [holds_append, leBytes_length] at ha
    have ih := fun st => scan_spec es n (i + 1) st (fun x hx => hok x (List.mem_cons_of_mem _ hx))
      (by simpa using hn) (by rw [Nat.mul_add, Nat.mul_one]; exact hb)
    rw [scan, cells8 ha.1]
    simp only
    rw [leNat_leBytes 8 e.1 (Nat.lt_of_lt_of_eq h1 (by decide)), if_neg (by omega), cells8 ha.2]
    simp only
    rw [leNat_leBytes 8 e.2 (Nat.lt_of_lt_of_eq h2 (by decide))]
    unfold fold
    rw [List.foldl_cons]
    by_cases h33 : e.1 = 33
    · rw [if_pos h33, if_pos h33]
      exact ih _
    · rw [if_neg h33, if_neg h33]
      by_cases h6 : e.1 = 6
      · rw [if_pos h6, if_pos h6]
        exact ih _
      · rw [if_neg h6, if_neg h6]
        exact ih _

theorem fold_spec : ∀ (es : List (Nat × Nat)) (st : AuxState),
    fold es st = { parsed := st.parsed, ehdr := (lastOf 33 es).getD st.ehdr,
                   pagesz := ((lastOf 6 es).map (· % 2 ^ 32)).getD st.pagesz } := by
  intro es
  induction es with
  | nil => intro st; rfl
  | cons e es ih =>
    intro st
    have hl : ∀ t, lastOf t (e :: es) = (lastOf t es).or (if e.1 = t then some e.2 else none) := by
      intro t
      unfold lastOf
      rw [List.reverse_cons, List.find?_append]
      cases (es.reverse.find? (fun e => decide (e.1 = t))) with
      | some x => rfl
      | none =>
        by_cases he : e.1 = t <;> simp [he]
    have hf : fold (e :: es) st = fold es (if e.1 = 33 then { st with ehdr := e.2 }
      else if e.1 = 6 then { st with pagesz := e.2 % 2 ^ 32 } else st) := rfl
    rw [hf, ih, hl, hl]
    by_cases h33 : e.1 = 33
    · have h6 : ¬ e.1 = 6 := by omega
      rw [if_pos h33, if_pos h33, if_neg h6]
      cases lastOf 33 es <;> cases lastOf 6 es <;> rfl
    · rw [if_neg h33, if_neg h33]
      by_cases h6 : e.1 = 6
      · rw [if_pos h6, if_pos h6]
        cases lastOf 33 es <;> cases lastOf 6 es <;> rfl
      · rw [if_neg h6, if_neg h6]
        cases lastOf 33 es <;> cases lastOf 6 es <;> rfl

/-! ### Reading the whole file -/

theorem fill_prefix {p bs : List UInt8} {t : Buf} (h : bs.length ≤ t.length) :
    fill (p.map some ++ t) p.length bs = (p ++ bs).map some ++ t.drop bs.length := by
  unfold fill
  rw [List.take_left' (by simp)]
  have : (p.map some ++ t).drop (p.length + bs.length) = t.drop bs.length := by
    rw [List.drop_append]
    simp
  rw [this]
  simp

/-- Whatever the schedule, the buffer ends up with the first 4096 bytes of the file, or there was an
error. -/
theorem fillBuffer_any : ∀ (n : Nat) (p : List UInt8) (t : Buf) (f : File),
    p.length + t.length = bufferLen → f.bytes.length + f.sched.length + 1 < n →
    (fillBuffer n (p.map some ++ t) p.length f = .ok .failed ∧ ¬ NoErrors f.sched) ∨
    ∃ t', fillBuffer n (p.map some ++ t) p.length f =
      .ok (.done ((p ++ f.bytes.take t.length).map some ++ t')) ∧
      t' = t.drop (f.bytes.take t.length).length
  | n + 1, p, t, f, hlen, hn => by
    have hcount : bufferLen - p.length = t.length := by omega
    -- one successful read of at most `k` bytes
    have step : ∀ (k : Nat) (s : List Ev), (k = t.length ∨ (∃ j, k = min t.length (j + 1))) →
        f.bytes.length + s.length < n →
        ((if f.bytes.take k = [] then (.ok (.done (p.map some ++ t)) : Except Fault Loaded)
          else if p.length = bufferLen then .ok (.full (p.map some ++ t) ⟨f.bytes.drop k, s⟩)
          else fillBuffer n (fill (p.map some ++ t) p.length (f.bytes.take k))
            (p.length + (f.bytes.take k).length) ⟨f.bytes.drop k, s⟩) = .ok .failed ∧ ¬ NoErrors s) ∨
        ∃ t', (if f.bytes.take k = [] then (.ok (.done (p.map some ++ t)) : Except Fault Loaded)
          else if p.length = bufferLen then .ok (.full (p.map some ++ t) ⟨f.bytes.drop k, s⟩)
          else fillBuffer n (fill (p.map some ++ t) p.length (f.bytes.take k))
            (p.length + (f.bytes.take k).length) ⟨f.bytes.drop k, s⟩) =
          .ok (.done ((p ++ f.bytes.take t.length).map some ++ t')) ∧
          t' = t.drop (f.bytes.take t.length).length := by
      intro k s hk hlt
      by_cases hnil : f.bytes.take k = []
      · rw [if_pos hnil]
        refine Or.inr ⟨t, ?_⟩
        have : f.bytes.take t.length = [] := by
          rw [List.take_eq_nil_iff] at hnil ⊢
          rcases hnil with h0 | h0
          · left
            rcases hk with hk | ⟨j, hk⟩ <;> omega
          · exact Or.inr h0
        rw [this, List.append_nil]
        exact ⟨rfl, rfl⟩
      · rw [if_neg hnil]
        have hkt : k ≤ t.length := by
          rcases hk with hk | ⟨j, hk⟩ <;> omega
        have hk0 : k ≠ 0 := by
          intro h0
          exact hnil (by rw [h0]; rfl)
        have hb0 : f.bytes ≠ [] := by
          intro h0
          exact hnil (by rw [h0]; simp)
        have hlen' : (f.bytes.take k).length ≤ t.length := by
          rw [List.length_take]
          omega
        rw [if_neg (by omega), fill_prefix hlen']
        have hpos : 0 < f.bytes.length := List.length_pos_iff.mpr hb0
        have htk : (f.bytes.take k).length = min k f.bytes.length := List.length_take
        have ih := fillBuffer_any n (p ++ f.bytes.take k) (t.drop (f.bytes.take k).length)
          ⟨f.bytes.drop k, s⟩ (by rw [List.length_append, List.length_drop]; omega) (by
            show (f.bytes.drop k).length + s.length + 1 < n
            rw [List.length_drop]
            omega)
        rw [List.length_append] at ih
        rcases ih with ih | ⟨t', ht', ht2⟩
        · exact Or.inl ih
        · refine Or.inr ⟨t', ?_⟩
          rw [ht']
          have this : f.bytes.take k ++ (f.bytes.drop k).take (t.length - min k f.bytes.length) =
              f.bytes.take t.length := by
            by_cases hkb : k ≤ f.bytes.length
            · rw [Nat.min_eq_left hkb]
              conv_rhs => rw [show t.length = k + (t.length - k) by omega, List.take_add]
            · rw [List.drop_eq_nil_of_le (by omega), List.take_nil, List.append_nil,
                List.take_of_length_le (by omega), List.take_of_length_le (by omega)]
          rw [List.length_drop, htk] at ht2 ⊢
          refine ⟨by rw [List.append_assoc, this], ?_⟩
          rw [ht2, ← this, List.drop_drop, List.length_append, htk]
    rw [fillBuffer, hcount]
    unfold read
    cases hsch : f.sched with
    | nil =>
      simp only
      exact step t.length [] (Or.inl rfl) (by
        rw [hsch] at hn
        simp only [List.length_nil] at hn ⊢
        omega)
    | cons e s =>
      have hmono : ¬ NoErrors s → ¬ NoErrors (e :: s) := fun h h' =>
        h (fun hm => h' (List.mem_cons_of_mem _ hm))
      rw [hsch] at hn
      simp only [List.length_cons] at hn
      cases e with
      | short k =>
        simp only
        rcases step (min t.length (k + 1)) s (Or.inr ⟨k, rfl⟩) (by omega) with h | h
        · exact Or.inl ⟨h.1, hmono h.2⟩
        · exact Or.inr h
      | eintr =>
        simp only
        rcases fillBuffer_any n p t { f with sched := s } hlen (by
          show f.bytes.length + s.length + 1 < n
          omega) with h | h
        · exact Or.inl ⟨h.1, hmono h.2⟩
        · exact Or.inr h
      | fail => exact Or.inl ⟨rfl, fun h => h (List.mem_cons_self ..)⟩

theorem fillBuffer_spec {n : Nat} {p : List UInt8} {t : Buf} {f : File}
    (hlen : p.length + t.length = bufferLen) (hno : NoErrors f.sched)
    (hn : f.bytes.length + f.sched.length + 1 < n) :
    ∃ t', fillBuffer n (p.map some ++ t) p.length f =
      .ok (.done ((p ++ f.bytes.take t.length).map some ++ t')) ∧
      t' = t.drop (f.bytes.take t.length).length := by
  rcases fillBuffer_any n p t f hlen hn with h | h
  · exact absurd hno h.2
  · exact h

/-! ### Lines of /proc/self/maps -/

theorem set_prefix {x : Option UInt8} {t : Buf} {c : UInt8} : ∀ (p : List UInt8),
    (p.map some ++ x :: t).set p.length (some c) = (p ++ [c]).map some ++ t
  | [] => rfl
  | a :: p => congrArg (some a :: ·) (set_prefix p)

theorem setCell_prefix {p : List UInt8} {x : Option UInt8} {t : Buf} {c : UInt8} :
    setCell (p.map some ++ x :: t) p.length c = .ok ((p ++ [c]).map some ++ t) := by
  unfold setCell
  rw [if_pos (by simp), set_prefix]

theorem read_quiet {f : File} {c : UInt8} {rest : List UInt8} (hq : Quiet f.sched)
    (hb : f.bytes = c :: rest) : ∃ s, Quiet s ∧ read f 1 = (.data [c], ⟨rest, s⟩) := by
  unfold read
  cases hs : f.sched with
  | nil => exact ⟨[], List.forall_mem_nil _, by rw [hb]; rfl⟩
  | cons e s =>
    obtain ⟨k, rfl⟩ := hq e (by rw [hs]; exact List.mem_cons_self ..)
    refine ⟨s, fun e he => hq e (by rw [hs]; exact List.mem_cons_of_mem _ he), ?_⟩
    simp only
    rw [Nat.min_eq_left (by omega), hb]
    rfl

theorem readLineLoop_spec : ∀ (s : List UInt8) (n : Nat) (p : List UInt8) (t : Buf) (f : File)
    (rest : List UInt8), Quiet f.sched → f.bytes = s ++ 10 :: rest → (∀ c ∈ s, c ≠ 10) →
    s.length < n → s.length + 1 < t.length →
    ∃ t' sch, readLineLoop n p.length (p.map some ++ t) f =
      .ok ((p ++ s ++ [10, 0]).map some ++ t', ⟨rest, sch⟩, true) ∧ Quiet sch ∧
      t'.length + s.length + 2 = t.length
  | [], n + 1, p, t, f, rest, hq, hb, _, _, ht => by
    obtain ⟨sch, hq', hr⟩ := read_quiet hq hb
    obtain ⟨x, t1, rfl⟩ : ∃ x t1, t = x :: t1 := by
      cases t with
      | nil => simp at ht
      | cons x t1 => exact ⟨x, t1, rfl⟩
    obtain ⟨y, t2, rfl⟩ : ∃ y t2, t1 = y :: t2 := by
      cases t1 with
      | nil => simp at ht
      | cons x t1 => exact ⟨x, t1, rfl⟩
    refine ⟨t2, sch, ?_, hq', by simp⟩
    rw [readLineLoop, hr]
    simp only
    rw [setCell_prefix]
    simp only
    rw [if_pos trivial]
    have h2 := setCell_prefix (p := p ++ [10]) (x := y) (t := t2) (c := 0)
    rw [List.length_append, List.length_singleton] at h2
    rw [h2]
    simp
  | c :: s, n + 1, p, t, f, rest, hq, hb, hno, hn, ht => by
    obtain ⟨sch, hq', hr⟩ := read_quiet (rest := s ++ 10 :: rest) hq hb
    obtain ⟨x, t1, rfl⟩ : ∃ x t1, t = x :: t1 := by
      cases t with
      | nil => simp at ht
      | cons x t1 => exact ⟨x, t1, rfl⟩
    obtain ⟨t', sch', g1, g2, g3⟩ := readLineLoop_spec s n (p ++ [c]) t1 ⟨s ++ 10 :: rest, sch⟩ rest
      hq' rfl (fun d hd => hno d (List.mem_cons_of_mem _ hd)) (by simpa using hn) (by simpa using ht)
    refine ⟨t', sch', ?_, g2, by simp only [List.length_cons]; omega⟩
    rw [readLineLoop, hr]
    simp only
    rw [setCell_prefix]
    simp only
    rw [if_neg (hno c (List.mem_cons_self ..))]
    rw [List.length_append, List.length_singleton] at g1
    rw [g1]
    simp

/-! #### Numbers -/

theorem hexDigit_char {u : Bool} {d : Nat} (h : d < 16) :
    hexDigit (digitChar u d) = some (digitVal (digitChar u d)) := by
  cases u <;> (unfold hexDigit digitVal digitChar; interval_cases d <;> decide)

theorem readHexLoop_spec {b : Buf} : ∀ (w : Name) (n i : Nat) (v : Nat) (len : Nat) (c : UInt8)
    (rest : List UInt8), HexDigits w → hexDigit c = none → Holds b i (w ++ c :: rest) → w.length < n →
    readHexLoop b n i (BitVec.ofNat 64 v) len =
      .ok (BitVec.ofNat 64 (w.foldl (fun v c => v * 16 + digitVal c) v), len + w.length)
  | [], n + 1, i, v, len, c, rest, _, hc, h, _ => by
    rw [readHexLoop, cell_holds h]
    simp only
    rw [hc]
    rfl
  | x :: w, n + 1, i, v, len, c, rest, hw, hc, h, hn => by
    obtain ⟨u, d, hd, rfl⟩ := hw x (List.mem_cons_self ..)
    have ih := readHexLoop_spec w n (i + 1) (v * 16 + digitVal (digitChar u d)) (len + 1) c rest
      (fun y hy => hw y (List.mem_cons_of_mem _ hy)) hc h.2 (by simpa using hn)
    rw [readHexLoop, cell_holds h]
    simp only
    rw [hexDigit_char hd]
    simp only
    have e : BitVec.ofNat 64 v * 16 + BitVec.ofNat 64 (digitVal (digitChar u d)) =
        BitVec.ofNat 64 (v * 16 + digitVal (digitChar u d)) := by
      rw [BitVec.ofNat_add, BitVec.ofNat_mul]
      rfl
    rw [e, ih, List.foldl_cons, List.length_cons, Nat.add_assoc, Nat.add_comm 1]

theorem readHex_spec {b : Buf} {w : Name} {i : Nat} {c : UInt8} {rest : List UInt8} (hw : HexDigits w)
    (hc : hexDigit c = none) (h : Holds b i (w ++ c :: rest)) :
    readHex b i = .ok (BitVec.ofNat 64 (hexVal w), w.length) := by
  have hl := holds_length h (by simp)
  rw [List.length_append, List.length_cons] at hl
  have := readHexLoop_spec w (b.length + 1) i 0 0 c rest hw hc h (by omega)
  rw [Nat.zero_add] at this
  exact this

/-! #### Words -/

theorem isBlank_iff {c : UInt8} : isBlank c = true ↔ Blank c := by
  unfold isBlank Blank
  simp [or_assoc]

theorem skipBlanks_spec {b : Buf} : ∀ (bl : List UInt8) (n i len : Nat) (c : UInt8)
    (rest : List UInt8), (∀ x ∈ bl, Blank x) → ¬ Blank c → Holds b i (bl ++ c :: rest) →
    bl.length < n → skipBlanks b n i len = .ok (len + bl.length)
  | [], n + 1, i, len, c, rest, _, hc, h, _ => by
    rw [skipBlanks, cell_holds h]
    simp only
    rw [if_neg (fun e => hc (isBlank_iff.mp e))]
    rfl
  | x :: bl, n + 1, i, len, c, rest, hb, hc, h, hn => by
    rw [skipBlanks, cell_holds h]
    simp only
    rw [if_pos (isBlank_iff.mpr (hb x (List.mem_cons_self ..)))]
    rw [skipBlanks_spec bl n (i + 1) (len + 1) c rest (fun y hy => hb y (List.mem_cons_of_mem _ hy)) hc
      h.2 (by simpa using hn)]
    rw [List.length_cons, Nat.add_assoc, Nat.add_comm 1]

/-- The character after a word. -/
def Ends (c : UInt8) : Prop := Blank c ∨ c = 0

theorem ends_iff {c : UInt8} : (isBlank c || c == 0) = true ↔ Ends c := by
  rw [Bool.or_eq_true, isBlank_iff, beq_iff_eq]
  rfl

theorem wordLoop_none {b : Buf} {wordSize : Nat} : ∀ (w : Name) (n i cur len : Nat) (c : UInt8)
    (rest : List UInt8), (∀ x ∈ w, ¬ Ends x) → Ends c → Holds b i (w ++ c :: rest) → w.length < n →
    wordLoop b wordSize n i cur len none = .ok (len + w.length, none)
  | [], n + 1, i, cur, len, c, rest, _, hc, h, _ => by
    rw [wordLoop, cell_holds h]
    simp only
    rw [if_pos (ends_iff.mpr hc)]
    rfl
  | x :: w, n + 1, i, cur, len, c, rest, hw, hc, h, hn => by
    rw [wordLoop, cell_holds h]
    simp only
    rw [if_neg (fun e => hw x (List.mem_cons_self ..) (ends_iff.mp e))]
    rw [wordLoop_none w n (i + 1) (cur + 1) (len + 1) c rest
      (fun y hy => hw y (List.mem_cons_of_mem _ hy)) hc h.2 (by simpa using hn)]
    rw [List.length_cons, Nat.add_assoc, Nat.add_comm 1]

theorem wordLoop_some {b : Buf} {wordSize : Nat} : ∀ (w : Name) (n i len : Nat) (c : UInt8)
    (rest : List UInt8) (p : List UInt8) (t : Buf), (∀ x ∈ w, ¬ Ends x) → Ends c →
    Holds b i (w ++ c :: rest) → w.length < n → p.length + w.length < wordSize → w.length < t.length →
    ∃ t', wordLoop b wordSize n i p.length len (some (p.map some ++ t)) =
      .ok (len + w.length, some ((p ++ w ++ [0]).map some ++ t')) ∧
      t'.length + w.length + 1 = t.length
  | [], n + 1, i, len, c, rest, p, t, _, hc, h, _, hs, ht => by
    obtain ⟨x, t1, rfl⟩ : ∃ x t1, t = x :: t1 := by
      cases t with
      | nil => simp at ht
      | cons x t1 => exact ⟨x, t1, rfl⟩
    refine ⟨t1, ?_, by simp⟩
    simp only [List.length_nil, Nat.add_zero] at hs
    rw [wordLoop, cell_holds h]
    simp only
    rw [if_pos (ends_iff.mpr hc), if_neg (by omega), setCell_prefix]
    simp
  | x :: w, n + 1, i, len, c, rest, p, t, hw, hc, h, hn, hs, ht => by
    obtain ⟨y, t1, rfl⟩ : ∃ y t1, t = y :: t1 := by
      cases t with
      | nil => simp at ht
      | cons x t1 => exact ⟨x, t1, rfl⟩
    simp only [List.length_cons] at hs hn ht
    obtain ⟨t', g1, g2⟩ := wordLoop_some (wordSize := wordSize) w n (i + 1) (len + 1) c rest (p ++ [x]) t1
      (fun y hy => hw y (List.mem_cons_of_mem _ hy)) hc h.2 (by omega)
      (by rw [List.length_append, List.length_singleton]; omega) (by omega)
    refine ⟨t', ?_, by simp only [List.length_cons]; omega⟩
    rw [wordLoop, cell_holds h]
    simp only
    rw [if_neg (fun e => hw x (List.mem_cons_self ..) (ends_iff.mp e)),
      if_neg (show ¬ p.length ≥ wordSize by omega), setCell_prefix]
    simp only
    rw [List.length_append, List.length_singleton] at g1
    rw [g1, List.length_cons, Nat.add_assoc, Nat.add_comm 1]
    simp

theorem word_ends {w : Name} (h : ∀ c ∈ w, ¬ Blank c ∧ c ≠ 0) : ∀ c ∈ w, ¬ Ends c := by
  intro c hc he
  rcases he with he | he
  · exact (h c hc).1 he
  · exact (h c hc).2 he

theorem readWord_none {b : Buf} {bl w : Name} {i : Nat} {c : UInt8} {rest : List UInt8}
    (hbl : ∀ x ∈ bl, Blank x) (hw : Word w) (hc : Ends c)
    (h : Holds b i (bl ++ (w ++ c :: rest))) :
    readWord b i none 0 = .ok (bl.length + w.length, none) := by
  have hl := holds_length h (by simp)
  simp only [List.length_append, List.length_cons] at hl
  obtain ⟨h1, h2⟩ := holds_append.mp h
  obtain ⟨x, w', rfl⟩ : ∃ x w', w = x :: w' := by
    cases w with
    | nil => exact absurd rfl hw.1
    | cons x w' => exact ⟨x, w', rfl⟩
  have hx := hw.2 x (List.mem_cons_self ..)
  unfold readWord
  rw [skipBlanks_spec bl (b.length + 1) i 0 x (w' ++ c :: rest) hbl hx.1 h (by omega), Nat.zero_add]
  simp only
  rw [cell_holds h2]
  simp only
  rw [if_neg hx.2]
  exact wordLoop_none (x :: w') (b.length + 1) (i + bl.length) 0 bl.length c rest (word_ends hw.2) hc h2
    (by simp only [List.length_cons] at hl ⊢; omega)

theorem readWord_some {b : Buf} {bl w : Name} {i : Nat} {c : UInt8} {rest : List UInt8} {word : Buf}
    {wordSize : Nat} (hbl : ∀ x ∈ bl, Blank x) (hw : ∀ c ∈ w, ¬ Blank c ∧ c ≠ 0)
    (hc : c = 0 ∨ (w ≠ [] ∧ Blank c)) (h : Holds b i (bl ++ (w ++ c :: rest)))
    (hws : w.length < wordSize) (hwl : word.length = wordSize) :
    ∃ t', readWord b i (some word) wordSize =
      .ok (bl.length + w.length, some ((w ++ [0]).map some ++ t')) ∧
      t'.length + w.length + 1 = word.length := by
  have hl := holds_length h (by simp)
  simp only [List.length_append, List.length_cons] at hl
  obtain ⟨h1, h2⟩ := holds_append.mp h
  have hends : Ends c := by
    rcases hc with hc | hc
    · exact Or.inr hc
    · exact Or.inl hc.2
  unfold readWord
  cases w with
  | nil =>
    have hc0 : c = 0 := by
      rcases hc with hc | hc
      · exact hc
      · exact absurd rfl hc.1
    subst hc0
    rw [skipBlanks_spec bl (b.length + 1) i 0 0 rest hbl (by unfold Blank; decide) h (by omega),
      Nat.zero_add]
    simp only
    rw [cell_holds h2]
    simp only
    rw [if_pos trivial]
    cases word with
    | nil => simp at hwl hws; omega
    | cons y t =>
      have := setCell_prefix (p := []) (x := y) (t := t) (c := 0)
      simp only [List.map_nil, List.nil_append, List.length_nil] at this
      rw [this]
      exact ⟨t, by simp, by simp⟩
  | cons x w' =>
    have hx := hw x (List.mem_cons_self ..)
    rw [skipBlanks_spec bl (b.length + 1) i 0 x (w' ++ c :: rest) hbl hx.1 h (by omega), Nat.zero_add]
    simp only
    rw [cell_holds h2]
    simp only
    rw [if_neg hx.2]
    exact wordLoop_some (x :: w') (b.length + 1) (i + bl.length) bl.length c rest [] word
      (word_ends hw) hends h2 (by simp only [List.length_cons] at hl ⊢; omega)
      (by simpa using hws) (by omega)

theorem bufStr_spec : ∀ (s : Name) (n : Nat) (b : Buf) (i : Nat), (∀ c ∈ s, c ≠ 0) →
    Holds b i (s ++ [0]) → s.length < n → bufStr b n i = .ok s
  | [], n + 1, b, i, _, h, _ => by
    rw [bufStr, cell_holds h]
    rfl
  | c :: s, n + 1, b, i, hs, h, hn => by
    rw [bufStr, cell_holds h]
    simp only
    rw [if_neg (hs c (List.mem_cons_self ..)), bufStr_spec s n b (i + 1)
      (fun d hd => hs d (List.mem_cons_of_mem _ hd)) h.2 (by simpa using hn)]

/-! #### Whole lines -/

theorem hexDigit_dash : hexDigit 45 = none := by decide
theorem hexDigit_space : hexDigit 32 = none := by decide

/-- The name, cut after the first word. -/
theorem name_split {l : MapLine} (h : l.Ok) : ∃ r, l.name = l.word ++ r ∧
    (∀ c ∈ l.word, ¬ Blank c ∧ c ≠ 0) ∧ (∀ c, r.head? = some c → Blank c) ∧
    (l.word = [] → l.name = []) := by
  refine ⟨l.name.dropWhile (fun c => c ≠ 32 && c ≠ 9), ?_, ?_, ?_, ?_⟩
  · unfold MapLine.word
    rw [List.takeWhile_append_dropWhile]
  · intro c hc
    have h1 := List.all_eq_true.mp List.all_takeWhile c hc
    have h2 := h.name c (List.takeWhile_subset _ hc)
    simp only [ne_eq, Bool.and_eq_true, decide_eq_true_eq] at h1
    refine ⟨?_, h2.1⟩
    rintro (e | e | e)
    · exact h1.1 e
    · exact h1.2 e
    · exact h2.2 e
  · intro c hc
    have := List.head?_dropWhile_not (fun c : UInt8 => decide (c ≠ 32) && decide (c ≠ 9)) l.name
    rw [hc] at this
    simp only [Bool.and_eq_true, decide_eq_true_eq, ne_eq, Bool.not_eq_eq_eq_not, Bool.not_true, Bool.and_eq_false_imp] at this
    by_cases h32 : c = 32
    · exact Or.inl h32
    · right; left
      by_contra h9
      simp [h32, h9] at this
  · intro hw
    cases hn : l.name with
    | nil => rfl
    | cons c r =>
      have hs := h.start c (by rw [hn]; rfl)
      unfold MapLine.word at hw
      rw [hn, List.takeWhile_cons] at hw
      have h1 : c ≠ 32 := fun e => hs (Or.inl e)
      have h2 : c ≠ 9 := fun e => hs (Or.inr (Or.inl e))
      simp [h1, h2] at hw

theorem parseLine_spec {l : MapLine} (hl : l.Ok) {b name : Buf} (hb : Holds b 0 (l.bytes ++ [0]))
    (hn : name.length = bufferLen) :
    ∃ name', parseLine b name =
        .ok (some (BitVec.ofNat 64 (hexVal l.lo), BitVec.ofNat 64 (hexVal l.hi), name')) ∧
      name'.length = bufferLen ∧ bufStr name' (bufferLen + 1) 0 = .ok l.word := by
  obtain ⟨r, e1, e2, e3, e4⟩ := name_split hl
  have hlen := hl.length
  have sp : ∀ x ∈ [(32 : UInt8)], Blank x := by
    intro x hx
    rw [List.mem_singleton] at hx
    exact Or.inl hx
  have es : Ends 32 := Or.inl (Or.inl rfl)
  unfold MapLine.bytes at hb hlen
  simp only [List.append_assoc, List.cons_append, List.nil_append] at hb
  -- the first number
  have h1 := readHex_spec hl.lo hexDigit_dash hb
  obtain ⟨_, h2⟩ := holds_append.mp hb
  rw [Nat.zero_add] at h2
  have hdash := cell_holds h2
  have h3 := h2.2
  have h4 := readHex_spec hl.hi hexDigit_space h3
  obtain ⟨_, h5⟩ := holds_append.mp h3
  have h6 := readWord_none (bl := [32]) sp hl.perms es h5
  have h5' := (holds_append (s := 32 :: l.perms)).mp h5
  have h7 := readWord_none (bl := [32]) sp hl.offset es h5'.2
  have h7' := (holds_append (s := 32 :: l.offset)).mp h5'.2
  have h8 := readWord_none (bl := [32]) sp hl.dev es h7'.2
  have h8' := (holds_append (s := 32 :: l.dev)).mp h7'.2
  have hpadb : ∀ x ∈ l.pad, Blank x := fun x hx => Or.inl (hl.pad x hx)
  -- the inode and what follows
  obtain ⟨c, rest, hc, hce⟩ : ∃ c rest, Ends c ∧ l.pad ++ (l.name ++ [10, 0]) = c :: rest := by
    cases hp : l.pad with
    | cons x p => exact ⟨x, _, Or.inl (hpadb x (by rw [hp]; exact List.mem_cons_self ..)), rfl⟩
    | nil =>
      cases hnm : l.name with
      | nil => exact ⟨10, [0], Or.inl (Or.inr (Or.inr rfl)), rfl⟩
      | cons y n => exact absurd hp (hl.sep (by rw [hnm]; simp))
  have h9' := (holds_append (s := 32 :: l.inode)).mp h8'.2
  have h9 := readWord_none (bl := [32]) sp hl.inode hc (by
    have := h8'.2
    rw [hce] at this
    exact this)
  -- the name
  have hwl : l.word.length < bufferLen := by
    simp only [List.length_append, List.length_cons] at hlen
    have : l.name.length = l.word.length + r.length := by
      conv_lhs => rw [e1]
      exact List.length_append
    show l.word.length < 4096
    omega
  obtain ⟨k, t', g1, g2⟩ : ∃ k t', readWord b
      (l.lo.length + 1 + l.hi.length + (32 :: l.perms).length + (32 :: l.offset).length +
        (32 :: l.dev).length + (32 :: l.inode).length) (some name) bufferLen =
      .ok (k, some ((l.word ++ [0]).map some ++ t')) ∧ t'.length + l.word.length + 1 = name.length := by
    have hh := h9'.2
    by_cases hw : l.word = []
    · have hname := e4 hw
      rw [hname, List.nil_append] at hh
      have := readWord_some (bl := l.pad ++ [10]) (w := []) (c := 0) (rest := []) (word := name)
        (wordSize := bufferLen) (b := b) (i := l.lo.length + 1 + l.hi.length +
          (32 :: l.perms).length + (32 :: l.offset).length + (32 :: l.dev).length +
          (32 :: l.inode).length) (by
          intro x hx
          rcases List.mem_append.mp hx with hx | hx
          · exact hpadb x hx
          · rw [List.mem_singleton] at hx
            exact Or.inr (Or.inr hx)) (by intro c hc; cases hc) (Or.inl rfl) (by simpa using hh)
        (by decide) hn
      rw [hw]
      obtain ⟨t', k1, k2⟩ := this
      exact ⟨_, t', k1, k2⟩
    · obtain ⟨d, rest', hd, hde⟩ : ∃ d rest', Blank d ∧ r ++ [10, 0] = d :: rest' := by
        cases hr : r with
        | nil => exact ⟨10, [0], Or.inr (Or.inr rfl), rfl⟩
        | cons x r' => exact ⟨x, _, e3 x (by rw [hr]; rfl), rfl⟩
      rw [e1, List.append_assoc, hde] at hh
      obtain ⟨t', k1, k2⟩ := readWord_some hpadb e2 (Or.inr ⟨hw, hd⟩) hh hwl hn
      exact ⟨_, t', k1, k2⟩
  refine ⟨(l.word ++ [0]).map some ++ t', ?_, ?_, ?_⟩
  · have lw : ∀ w : Name, [(32 : UInt8)].length + w.length = (32 :: w).length := fun w => by
      simp only [List.length_cons, List.length_nil]; omega
    rw [lw] at h6 h7 h8 h9
    unfold parseLine
    rw [h1]
    simp only [bind, Except.bind, pure, Except.pure]
    rw [hdash]
    simp only [ne_eq, not_true, if_false]
    rw [h4]
    simp only
    rw [h6]
    simp only
    rw [h7]
    simp only
    rw [h8]
    simp only
    rw [h9]
    simp only
    rw [g1]
  · rw [List.length_append, List.length_map, List.length_append, List.length_singleton]
    omega
  · exact bufStr_spec l.word (bufferLen + 1) _ 0 (fun c hc => (e2 c hc).2) holds_prefix0 (by omega)

theorem bytes_split {l : MapLine} (hl : l.Ok) : ∃ s, l.bytes = s ++ [10] ∧ ∀ c ∈ s, c ≠ 10 := by
  refine ⟨_, rfl, ?_⟩
  have hexno : ∀ {w : Name}, HexDigits w → ∀ c ∈ w, c ≠ 10 := by
    intro w hw c hc e
    obtain ⟨u, d, hd, rfl⟩ := hw c hc
    have := hexDigit_char (u := u) hd
    rw [e] at this
    simp [hexDigit] at this
  have wno : ∀ {w : Name}, Word w → ∀ c ∈ w, c ≠ 10 := by
    intro w hw c hc e
    exact (hw.2 c hc).1 (Or.inr (Or.inr e))
  intro c hc
  simp only [List.mem_append, List.mem_cons, List.append_assoc, List.cons_append] at hc
  rcases hc with h | h | h | h | h | h | h | h | h | h | h | h | h
  · exact hexno hl.lo c h
  · rw [h]; decide
  · exact hexno hl.hi c h
  · rw [h]; decide
  · exact wno hl.perms c h
  · rw [h]; decide
  · exact wno hl.offset c h
  · rw [h]; decide
  · exact wno hl.dev c h
  · rw [h]; decide
  · exact wno hl.inode c h
  · rw [hl.pad c h]; decide
  · exact (hl.name c h).2

/-- The end of the file. -/
theorem readLine_eof {b : Buf} {f : File} (hb : b.length = bufferLen) (hf : f.bytes = [])
    (hq : Quiet f.sched) : ∃ b' f', readLine b bufferLen f = .ok (b', f', false) := by
  unfold readLine
  rw [show bufferLen - 1 = 4094 + 1 from rfl, readLineLoop]
  have hr : ∃ f', read f 1 = (.data [], f') := by
    unfold read
    cases hs : f.sched with
    | nil => exact ⟨_, by rw [hf]; rfl⟩
    | cons e s =>
      obtain ⟨k, rfl⟩ := hq e (by rw [hs]; exact List.mem_cons_self ..)
      exact ⟨⟨[], s⟩, by rw [hf]; simp⟩
  obtain ⟨f', hr⟩ := hr
  rw [hr]
  simp only
  unfold setCell
  rw [if_pos (by rw [hb]; decide)]
  exact ⟨_, _, rfl⟩

theorem mapsLoop_spec : ∀ (ls : List MapLine) (n : Nat) (line name : Buf) (f : File),
    (∀ l ∈ ls, l.Ok) → f.bytes = ls.flatMap MapLine.bytes → Quiet f.sched →
    line.length = bufferLen → name.length = bufferLen → ls.length < n →
    mapsLoop n line name f = .ok ((ls.find? (fun l => l.word = nm "[vdso]")).map
      (fun l => (BitVec.ofNat 64 (hexVal l.lo), BitVec.ofNat 64 (hexVal l.hi))))
  | [], n + 1, line, name, f, _, hb, hq, h1, _, _ => by
    obtain ⟨b', f', hr⟩ := readLine_eof h1 hb hq
    rw [mapsLoop, hr]
    rfl
  | l :: ls, n + 1, line, name, f, hok, hb, hq, h1, h2, hn => by
    have hl := hok l (List.mem_cons_self ..)
    obtain ⟨s, e1, e2⟩ := bytes_split hl
    have hlen := hl.length
    rw [e1, List.length_append, List.length_singleton] at hlen
    have hl4 : line.length = 4096 := h1
    obtain ⟨t', sch, g1, g2, g3⟩ := readLineLoop_spec s (bufferLen - 1) [] line f
      (ls.flatMap MapLine.bytes) hq (by rw [hb, List.flatMap_cons, e1]; simp) e2
      (by show s.length < 4096 - 1; omega) (by omega)
    simp only [List.map_nil, List.nil_append, List.length_nil] at g1
    have hholds : Holds ((s ++ [10, 0]).map some ++ t') 0 (l.bytes ++ [0]) := by
      rw [e1, List.append_assoc]
      exact holds_prefix0
    obtain ⟨name', k1, k2, k3⟩ := parseLine_spec hl hholds h2
    rw [mapsLoop]
    unfold readLine
    rw [g1]
    simp only
    rw [k1]
    simp only
    rw [k3]
    simp only
    rw [List.find?_cons]
    by_cases hv : l.word = nm "[vdso]"
    · rw [if_pos hv, decide_eq_true hv]
      rfl
    · rw [if_neg hv, decide_eq_false hv]
      simp only
      exact mapsLoop_spec ls n _ name' ⟨ls.flatMap MapLine.bytes, sch⟩
        (fun x hx => hok x (List.mem_cons_of_mem _ hx)) rfl g2 (by
          rw [List.length_append, List.length_map, List.length_append]
          simp only [List.length_cons, List.length_nil]
          show _ = 4096
          omega) k2 (by simpa using hn)

theorem lines_length : ∀ (ls : List MapLine), ls.length ≤ (ls.flatMap MapLine.bytes).length
  | [] => Nat.le_refl _
  | l :: ls => by
    rw [List.flatMap_cons, List.length_append, List.length_cons]
    have := lines_length ls
    have : 1 ≤ l.bytes.length := by
      unfold MapLine.bytes
      rw [List.length_append, List.length_singleton]
      omega
    omega

theorem vdsoFromMaps_spec {ls : List MapLine} {sched : List Ev} {maps : List LinkMap}
    (hok : ∀ l ∈ ls, l.Ok) (hq : Quiet sched) :
    vdsoFromMaps (some ⟨ls.flatMap MapLine.bytes, sched⟩) maps = .ok (vdsoByLines ls maps) := by
  unfold vdsoFromMaps vdsoByLines
  have hfl : freshBuf.length = bufferLen := List.length_replicate
  have hll := lines_length ls
  simp only
  rw [mapsLoop_spec ls _ freshBuf freshBuf _ hok rfl hq hfl hfl (by unfold File.fuel; simp only; omega)]
  cases ls.find? (fun l => decide (l.word = nm "[vdso]")) with
  | none => rfl
  | some l =>
    simp only [Option.map_some]
    congr 2

/-! ### Whole auxiliary vectors -/

theorem cells_outside {b : Buf} {i n : Nat} (h : b[i]? = none) : cells b i (n + 1) = .error .outOfBounds := by
  rw [cells]
  unfold cell
  rw [h]

theorem cells_uninit {b : Buf} {i n : Nat} (h : b[i]? = some none) : cells b i (n + 1) = .error .uninit := by
  rw [cells]
  unfold cell
  rw [h]

/-- Entries without a terminator: the scan goes on behind them. -/
theorem scan_beyond {b : Buf} : ∀ (es : List (Nat × Nat)) (n i : Nat) (st : AuxState) (e : Fault),
    EntriesOk es → es.length < n → Holds b (16 * i) (es.flatMap entryBytes) →
    cells b (16 * (i + es.length)) 8 = .error e → scan b n i st = .error e
  | [], n + 1, i, st, e, _, _, _, h => by
    rw [scan]
    have h' : cells b (16 * i) 8 = .error e := h
    rw [h']
  | x :: es, n + 1, i, st, e, hok, hn, h, hc => by
    obtain ⟨h0, h1, h2⟩ := hok x (List.mem_cons_self ..)
    rw [List.flatMap_cons, holds_append, entryBytes_length] at h
    obtain ⟨ha, hb⟩ := h
    unfold entryBytes at ha
    rw [holds_append, leBytes_length] at ha
    have ih := fun st => scan_beyond es n (i + 1) st e (fun y hy => hok y (List.mem_cons_of_mem _ hy))
      (by simpa using hn) (by rw [Nat.mul_add, Nat.mul_one]; exact hb) (by
        rw [List.length_cons] at hc
        rw [show i + 1 + es.length = i + (es.length + 1) by omega]
        exact hc)
    rw [scan, cells8 ha.1]
    simp only
    rw [leNat_leBytes 8 x.1 (Nat.lt_of_lt_of_eq h1 (by decide)), if_neg (by omega), cells8 ha.2]
    simp only
    split
    · exact ih _
    · split
      · exact ih _
      · exact ih _

/-- `parse_auxv_contents` in terms of the scan of the first 4096 bytes. -/
theorem parseAuxv_any (bytes : List UInt8) (sched : List Ev) :
    (parseAuxv AuxState.init (some ⟨bytes, sched⟩) = .ok (⟨-1, 0, 0⟩, -1) ∧ ¬ NoErrors sched) ∨
    parseAuxv AuxState.init (some ⟨bytes, sched⟩) =
      (match scan ((bytes.take bufferLen).map some ++ freshBuf.drop (bytes.take bufferLen).length) 257 0
          ⟨1, 0, 0⟩ with
        | .error e => .error e
        | .ok st => .ok (st, 0)) := by
  have hfl : freshBuf.length = bufferLen := List.length_replicate
  have hany := fillBuffer_any (⟨bytes, sched⟩ : File).fuel [] freshBuf
    ⟨bytes, sched⟩ (by rw [hfl]; rfl) (by unfold File.fuel; simp only; omega)
  simp only [List.map_nil, List.nil_append, List.length_nil] at hany
  rw [hfl] at hany
  obtain ⟨k, hk⟩ : ∃ k, (⟨bytes, sched⟩ : File).fuel = k + 1 := ⟨_, rfl⟩
  have hp : parseAuxv AuxState.init (some ⟨bytes, sched⟩) =
      (match parseLoop (k + 1) freshBuf 0 ⟨bytes, sched⟩ ⟨1, 0, 0⟩ with
        | .error e => .error e
        | .ok none => .ok (⟨-1, 0, 0⟩, -1)
        | .ok (some st') => .ok (st', 0)) := by
    unfold parseAuxv
    rw [if_neg (by simp [AuxState.init])]
    simp only
    rw [hk]
    rfl
  rw [hp, parseLoop]
  rcases hany with ⟨h1, h2⟩ | ⟨t', h1, h2⟩
  · rw [h1]
    exact Or.inl ⟨rfl, h2⟩
  · rw [h1, h2]
    right
    simp only
    cases scan ((bytes.take bufferLen).map some ++ freshBuf.drop (bytes.take bufferLen).length) 257 0
          ⟨1, 0, 0⟩ <;> rfl

theorem parseAuxv_spec {es : List (Nat × Nat)} {tail : List UInt8} {sched : List Ev}
    (hes : EntriesOk es) (hlen : es.length < 256) :
    (parseAuxv AuxState.init (some ⟨auxBytes es tail, sched⟩) = .ok (⟨-1, 0, 0⟩, -1) ∧
      ¬ NoErrors sched) ∨
    parseAuxv AuxState.init (some ⟨auxBytes es tail, sched⟩) =
      .ok ({ parsed := 1, ehdr := (lastOf 33 es).getD 0,
             pagesz := ((lastOf 6 es).map (· % 2 ^ 32)).getD 0 }, 0) := by
  rcases parseAuxv_any (auxBytes es tail) sched with h | h
  · exact Or.inl h
  · right
    rw [h]
    have hpre : (es.flatMap entryBytes ++ leBytes 8 0).length ≤ bufferLen := by
      rw [List.length_append, entries_length, leBytes_length]
      show _ ≤ 4096
      omega
    rw [scan_spec es 257 0 _ hes (by omega) (by
      unfold auxBytes
      rw [List.take_append, List.take_of_length_le hpre]
      exact (holds_append.mp holds_prefix0).1)]
    simp only
    rw [fold_spec]

/-! ### An interrupted line -/

theorem set_at {x : Option UInt8} {t : Buf} {c : UInt8} : ∀ (u : Buf),
    (u ++ x :: t).set u.length (some c) = u ++ some c :: t
  | [] => rfl
  | a :: u => congrArg (a :: ·) (set_at u)

theorem readLineLoop_keeps : ∀ (n i : Nat) (b : Buf) (f : File) {b' : Buf} {f' : File} {r : Bool}
    {j : Nat}, readLineLoop n i b f = .ok (b', f', r) → j < i → b'[j]? = b[j]?
  | 0, i, b, f, b', f', r, j, h, hj => by
    rw [readLineLoop] at h
    unfold setCell at h
    split at h
    · cases h
    · rename_i heq
      split at heq
      · cases heq
        cases h
        rw [List.getElem?_set_ne (by omega)]
      · cases heq
  | n + 1, i, b, f, b', f', r, j, h, hj => by
    have hset : ∀ {b1 b2 : Buf} {k : Nat} {c : UInt8}, setCell b1 k c = .ok b2 → j < k →
        b2[j]? = b1[j]? := by
      intro b1 b2 k c h1 h2
      unfold setCell at h1
      split at h1
      · cases h1
        rw [List.getElem?_set_ne (by omega)]
      · cases h1
    rw [readLineLoop] at h
    split at h
    · exact readLineLoop_keeps n (i + 1) b _ h (by omega)
    · split at h
      · cases h
      · rename_i hs
        cases h
        exact hset hs hj
    · split at h
      · cases h
      · rename_i hs
        cases h
        exact hset hs hj
    · split at h
      · cases h
      · rename_i hs
        split at h
        · split at h
          · cases h
          · rename_i hs2
            cases h
            rw [hset hs2 (by omega), hset hs hj]
        · rw [readLineLoop_keeps n (i + 1) _ _ h (by omega), hset hs hj]

end Gotcha.Auxv
