import Verif.Proof.Auxv
/-
C72: `read_line` with a buffer of any size and lines of any length.  Line after line, the pieces it
delivers are together the file, byte for byte; only lines that do not fit are cut, and then
continued by the next call.
-/
namespace Gotcha.Props
open Gotcha Gotcha.Auxv Gotcha.Spec.Auxv

/-- The next piece of a file for a buffer of `n + 1` bytes: up to `n` bytes, up to the end of the
line. -/
def piece : Nat → List UInt8 → List UInt8
  | 0, _ => []
  | _ + 1, [] => []
  | n + 1, c :: bs => if c = 10 then [10] else c :: piece n bs

/-- The piece is complete: a whole line, or as much as fits. -/
def Complete (n : Nat) (s : List UInt8) : Prop := s.length = n ∨ s.getLast? = some 10

instance (n : Nat) (s : List UInt8) : Decidable (Complete n s) := by unfold Complete; infer_instance

theorem piece_prefix : ∀ (n : Nat) (bs : List UInt8), ∃ r, bs = piece n bs ++ r
  | 0, bs => ⟨bs, rfl⟩
  | _ + 1, [] => ⟨[], rfl⟩
  | n + 1, c :: bs => by
    unfold piece
    split
    · next h => exact ⟨bs, by rw [h]; rfl⟩
    · obtain ⟨r, hr⟩ := piece_prefix n bs
      exact ⟨r, by rw [List.cons_append, ← hr]⟩

theorem piece_length : ∀ (n : Nat) (bs : List UInt8), (piece n bs).length ≤ n
  | 0, _ => Nat.le_refl _
  | _ + 1, [] => Nat.zero_le _
  | n + 1, c :: bs => by
    unfold piece
    split
    · simp
    · simpa using piece_length n bs

theorem read_end {f : File} (hq : Quiet f.sched) (hb : f.bytes = []) :
    ∃ s, Quiet s ∧ Auxv.read f 1 = (.data [], ⟨[], s⟩) := by
  unfold Auxv.read
  cases hs : f.sched with
  | nil => exact ⟨[], List.forall_mem_nil _, by rw [hb]; rfl⟩
  | cons e s =>
    obtain ⟨k, rfl⟩ := hq e (by rw [hs]; exact List.mem_cons_self ..)
    refine ⟨s, fun e he => hq e (by rw [hs]; exact List.mem_cons_of_mem _ he), ?_⟩
    simp only
    rw [hb]
    simp

theorem readLineLoop_any : ∀ (n : Nat) (p : List UInt8) (t : Buf) (f : File), Quiet f.sched →
    n < t.length →
    ∃ sch, readLineLoop n p.length (p.map some ++ t) f =
      .ok ((p ++ piece n f.bytes ++ [0]).map some ++ t.drop ((piece n f.bytes).length + 1),
        ⟨f.bytes.drop (piece n f.bytes).length, sch⟩, decide (Complete n (piece n f.bytes))) ∧ Quiet sch
  | 0, p, t, f, hq, ht => by
    obtain ⟨x, t1, rfl⟩ : ∃ x t1, t = x :: t1 := by
      cases t with
      | nil => simp at ht
      | cons x t1 => exact ⟨x, t1, rfl⟩
    refine ⟨f.sched, ?_, hq⟩
    rw [readLineLoop, setCell_prefix]
    simp [piece, Complete]
  | n + 1, p, t, f, hq, ht => by
    obtain ⟨x, t1, rfl⟩ : ∃ x t1, t = x :: t1 := by
      cases t with
      | nil => simp at ht
      | cons x t1 => exact ⟨x, t1, rfl⟩
    simp only [List.length_cons] at ht
    cases hb : f.bytes with
    | nil =>
      obtain ⟨s, hs, hr⟩ := read_end hq hb
      refine ⟨s, ?_, hs⟩
      rw [readLineLoop, hr]
      simp only
      rw [setCell_prefix]
      simp [piece, Complete]
    | cons c bs =>
      obtain ⟨sch, hq', hr⟩ := read_quiet hq hb
      rw [readLineLoop, hr]
      simp only
      rw [setCell_prefix]
      simp only
      by_cases hc : c = 10
      · subst hc
        rw [if_pos rfl]
        obtain ⟨y, t2, rfl⟩ : ∃ y t2, t1 = y :: t2 := by
          cases t1 with
          | nil => simp at ht
          | cons x t1 => exact ⟨x, t1, rfl⟩
        have h2 := setCell_prefix (p := p ++ [10]) (x := y) (t := t2) (c := 0)
        rw [List.length_append, List.length_singleton] at h2
        rw [h2]
        refine ⟨sch, ?_, hq'⟩
        simp [piece, Complete]
      · rw [if_neg hc]
        obtain ⟨sch', g1, g2⟩ := readLineLoop_any n (p ++ [c]) t1 ⟨bs, sch⟩ hq' (by omega)
        rw [List.length_append, List.length_singleton] at g1
        refine ⟨sch', ?_, g2⟩
        rw [g1]
        have e : piece (n + 1) (c :: bs) = c :: piece n bs := by
          rw [piece, if_neg hc]
        rw [e]
        have e2 : Complete (n + 1) (c :: piece n bs) ↔ Complete n (piece n bs) := by
          unfold Complete
          rw [List.length_cons, List.getLast?_cons]
          cases hl : (piece n bs).getLast? with
          | none =>
            rw [List.getLast?_eq_none_iff] at hl
            simp [hl, hc, eq_comm]
          | some z => simp
        simp [e2]

/-- C72.  One call with a buffer of at least the size passed: no fault; the buffer holds the next piece
of the file and a terminator, the rest of it is untouched; exactly that piece is consumed; the result is
0 just when the piece is complete. -/
theorem C72_read_line {b : Buf} {size : Nat} {f : File} (hq : Quiet f.sched) (hs : 0 < size)
    (hb : size ≤ b.length) :
    ∃ sch, readLine b size f =
      .ok ((piece (size - 1) f.bytes ++ [0]).map some ++ b.drop ((piece (size - 1) f.bytes).length + 1),
        ⟨f.bytes.drop (piece (size - 1) f.bytes).length, sch⟩,
        decide (Complete (size - 1) (piece (size - 1) f.bytes))) ∧ Quiet sch := by
  have := readLineLoop_any (size - 1) [] b f hq (by omega)
  simpa [readLine] using this

theorem readLineLoop_fail : ∀ (w : List UInt8) (q : List Ev) (n : Nat) (p : List UInt8) (t : Buf)
    (bs : List UInt8) (rest : List Ev), Quiet q → q.length = w.length → 10 ∉ w → w.length < n → n < t.length →
    readLineLoop n p.length (p.map some ++ t) ⟨w ++ bs, q ++ .fail :: rest⟩ =
      .ok ((p ++ w ++ [0]).map some ++ t.drop (w.length + 1), ⟨bs, rest⟩, false)
  | [], q, n + 1, p, t, bs, rest, _, hl, _, _, ht => by
    obtain rfl : q = [] := List.length_eq_zero_iff.1 hl
    obtain ⟨x, t1, rfl⟩ : ∃ x t1, t = x :: t1 := by
      cases t with
      | nil => simp at ht
      | cons x t1 => exact ⟨x, t1, rfl⟩
    rw [readLineLoop]
    simp only [List.nil_append, Auxv.read]
    rw [setCell_prefix]
    simp
  | c :: w, e :: q, n + 1, p, t, bs, rest, hq, hl, h10, hn, ht => by
    obtain ⟨x, t1, rfl⟩ : ∃ x t1, t = x :: t1 := by
      cases t with
      | nil => simp at ht
      | cons x t1 => exact ⟨x, t1, rfl⟩
    obtain ⟨k, rfl⟩ := hq e (List.mem_cons_self ..)
    rw [readLineLoop]
    have hm : min 1 (k + 1) = 1 := by omega
    simp only [List.cons_append, Auxv.read, hm, List.take_succ_cons, List.take_zero, List.drop_succ_cons,
      List.drop_zero]
    rw [setCell_prefix]
    simp only
    rw [if_neg (fun h => h10 (by rw [h]; exact List.mem_cons_self ..))]
    have g := readLineLoop_fail w q n (p ++ [c]) t1 bs rest
      (fun e he => hq e (List.mem_cons_of_mem _ he)) (by simpa using hl)
      (fun h => h10 (List.mem_cons_of_mem _ h)) (by simpa using hn) (by simpa using ht)
    rw [List.length_append, List.length_singleton] at g
    simp only [List.map_append, List.map_cons, List.map_nil, List.append_assoc, List.cons_append,
      List.nil_append] at g ⊢
    rw [g]
    simp

/-- C72.  When a read fails for another reason than a signal, after the bytes `w` of a line: what was read
is in the buffer with a terminator, and the result is -1, as at the end of the file; the caller
(`get_vdso_from_maps`) gives up. -/
theorem C72_read_error {b : Buf} {size : Nat} {w bs : List UInt8} {q rest : List Ev} (hq : Quiet q)
    (hl : q.length = w.length) (h10 : 10 ∉ w) (hs : w.length + 1 < size) (hb : size ≤ b.length) :
    readLine b size ⟨w ++ bs, q ++ .fail :: rest⟩ =
      .ok ((w ++ [0]).map some ++ b.drop (w.length + 1), ⟨bs, rest⟩, false) := by
  have := readLineLoop_fail w q (size - 1) [] b bs rest hq hl h10 (by omega) (by omega)
  simpa [readLine] using this

example : Quiet [.short 0, .short 3] ∧ [Ev.short 0, .short 3].length = [104, 105].length ∧
    (10 : UInt8) ∉ ([104, 105] : List UInt8) := by
  refine ⟨?_, rfl, by decide⟩
  intro e he
  simp only [List.mem_cons, List.not_mem_nil, or_false] at he
  rcases he with rfl | rfl
  · exact ⟨_, rfl⟩
  · exact ⟨_, rfl⟩

/-- Lines as `get_vdso_from_maps` reads them (src/gotcha_auxv.c:209-214): until a call fails.  The
pieces delivered, each as the C string in the buffer, and the last, incomplete one. -/
def readLines (size : Nat) : Nat → Buf → File → Except Fault (List Name × Name)
  | 0, _, _ => .error .diverge
  | n + 1, b, f =>
    match readLine b size f with
    | .error e => .error e
    | .ok (b', f', more) =>
      match bufStr b' (b'.length + 1) 0 with
      | .error e => .error e
      | .ok s =>
        if more then
          match readLines size n b' f' with
          | .error e => .error e
          | .ok (ls, last) => .ok (s :: ls, last)
        else .ok ([], s)

/-- C72.  With a buffer for at least one character, a text file of any length is delivered completely
and in order, in pieces that are whole lines or fill the buffer. -/
theorem C72_whole_file {size : Nat} (hs : 2 ≤ size) : ∀ (n : Nat) (b : Buf) (f : File), Quiet f.sched →
    size ≤ b.length → f.bytes.length < n → (∀ c ∈ f.bytes, c ≠ 0) →
    ∃ ls last, readLines size n b f = .ok (ls, last) ∧ ls.flatten ++ last = f.bytes ∧
      (∀ l ∈ ls, l ≠ [] ∧ Complete (size - 1) l ∧ 10 ∉ l.dropLast) ∧ 10 ∉ last
  | 0, b, f, _, _, hn, _ => absurd hn (Nat.not_lt_zero _)
  | n + 1, b, f, hq, hb, hn, h0 => by
    obtain ⟨sch, h1, h2⟩ := C72_read_line hq (by omega : 0 < size) hb
    obtain ⟨r, hr⟩ := piece_prefix (size - 1) f.bytes
    have hle := piece_length (size - 1) f.bytes
    -- newlines only at the end
    have hnl : ∀ (m : Nat) (bs : List UInt8), 10 ∉ (piece m bs).dropLast := by
      intro m
      induction m with
      | zero => intro bs; simp [piece]
      | succ m ih =>
        intro bs
        cases bs with
        | nil => simp [piece]
        | cons c bs =>
          unfold piece
          split
          · simp
          · next hc =>
            cases hp : piece m bs with
            | nil => simp
            | cons y ys =>
              rw [List.dropLast_cons_of_ne_nil (by simp), ← hp]
              simp only [List.mem_cons, not_or]
              exact ⟨fun h => hc h.symm, ih bs⟩
    generalize hP : piece (size - 1) f.bytes = s at *
    have hstr : ∀ (t : Buf), bufStr ((s ++ [0]).map some ++ t) (((s ++ [0]).map some ++ t).length + 1) 0 =
        .ok s := by
      intro t
      refine bufStr_spec s _ _ _ ?_ holds_prefix0 (by simp; omega)
      intro c hc
      exact h0 c (by rw [hr]; exact List.mem_append_left _ hc)
    have hdrop : f.bytes.drop s.length = r := by
      conv_lhs => rw [hr]
      exact List.drop_left
    rw [readLines, h1]
    simp only
    rw [hstr]
    simp only
    by_cases hc : Complete (size - 1) s
    · rw [if_pos (decide_eq_true hc), hdrop]
      have hne : s ≠ [] := by
        rintro rfl
        rcases hc with hc | hc
        · simp at hc; omega
        · simp at hc
      have hpos := List.length_pos_iff.mpr hne
      have hfl : f.bytes.length = s.length + r.length := by
        conv_lhs => rw [hr]
        exact List.length_append
      obtain ⟨ls, last, g1, g2, g3, g4⟩ := C72_whole_file hs n
        ((s ++ [0]).map some ++ b.drop (s.length + 1)) ⟨r, sch⟩ h2
        (by simp only [List.length_append, List.length_map, List.length_singleton, List.length_drop]
            omega)
        (by show r.length < n; omega)
        (fun c hc => h0 c (by rw [hr]; exact List.mem_append_right _ hc))
      rw [g1]
      refine ⟨s :: ls, last, rfl, ?_, ?_, g4⟩
      · rw [List.flatten_cons, List.append_assoc, g2]
        exact hr.symm
      · intro l hl
        rcases List.mem_cons.mp hl with rfl | hl
        · exact ⟨hne, hc, hP ▸ hnl _ _⟩
        · exact g3 l hl
    · rw [if_neg (by simpa using hc)]
      refine ⟨[], s, rfl, ?_, fun l hl => absurd hl List.not_mem_nil, ?_⟩
      · -- an incomplete piece is the rest of the file
        have key : ∀ (m : Nat) (bs : List UInt8), ¬ Complete m (piece m bs) → piece m bs = bs := by
          intro m
          induction m with
          | zero => intro bs h; exact absurd (Or.inl rfl) h
          | succ m ih =>
            intro bs h
            cases bs with
            | nil => rfl
            | cons c bs =>
              rw [piece] at h ⊢
              split at h
              · exact absurd (Or.inr rfl) h
              · next hc =>
                rw [if_neg hc, ih bs]
                intro h2
                apply h
                rcases h2 with h2 | h2
                · exact Or.inl (by rw [List.length_cons, h2])
                · refine Or.inr ?_
                  rw [List.getLast?_cons, h2]
                  rfl
        simp only [List.flatten_nil, List.nil_append]
        rw [← hP]
        exact key _ _ (by rw [hP]; exact hc)
      · intro hm
        have hne : s ≠ [] := List.ne_nil_of_mem hm
        rw [← List.dropLast_concat_getLast hne] at hm
        rcases List.mem_append.mp hm with hm | hm
        · exact (hP ▸ hnl (size - 1) f.bytes) hm
        · rw [List.mem_singleton] at hm
          exact hc (Or.inr (by rw [List.getLast?_eq_some_getLast hne, ← hm]))

/-- "ab\nxyz\nq" through a buffer of three bytes. -/
example : ∃ ls last, readLines 3 20 (List.replicate 3 none) ⟨nm "ab\nxyz\nq", [.short 4]⟩ =
    .ok (ls, last) ∧ ls.flatten ++ last = nm "ab\nxyz\nq" := by
  obtain ⟨ls, last, h1, h2, _⟩ := C72_whole_file (size := 3) (by decide) 20 (List.replicate 3 none)
    ⟨nm "ab\nxyz\nq", [.short 4]⟩ (by
      intro e he
      exact ⟨4, List.mem_singleton.mp he⟩) (by simp) (by decide +kernel) (by
      intro c hc
      have e : nm "ab\nxyz\nq" = [97, 98, 10, 120, 121, 122, 10, 113] := by decide +kernel
      simp only [e, List.mem_cons, List.not_mem_nil, or_false] at hc
      rcases hc with rfl | rfl | rfl | rfl | rfl | rfl | rfl | rfl <;> decide)
  exact ⟨ls, last, h1, h2⟩

end Gotcha.Props
