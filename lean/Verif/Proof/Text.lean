import Verif.Spec.Text
import Verif.Proof.DebugPrint
/-
The texts of the messages as formats of `gotcha_int_printf`.
-/
namespace Gotcha.Spec.Text
open Spec.Printf (Piece format args render integer numeral)

/-- How a part is given to `gotcha_int_printf` (with 64-bit numbers). -/
def piece : Field → Piece
  | .text s => .text s
  | .place s | .str s => .str s
  | .int z => .signed .int false (BitVec.ofInt 64 z)
  | .nat n => .unsigned .l (BitVec.ofNat 64 n)
  | .hex n => .hex .l false (BitVec.ofNat 64 n)
  | .addr a => .ptr a

/-- The pieces of a message. -/
def pieces (L : Layout) : Note → List Piece
  | .one m => m.pieces
  | .generation g => [.text (nm "Moved current_generation to "), .unsigned .int (g.setWidth 64),
      .text (nm " in gotcha_wrap\n")]
  | n => (fields L n).map piece

theorem pieces_format (L : Layout) (n : Note) : format (pieces L n) = n.fmt := by
  cases n with
  | one m => exact Gotcha.pieces_format m
  | mark k m r =>
    cases k <;>
    · simp only [pieces, fields, Note.fmt, List.map_cons, List.map_nil, piece, format, List.flatMap_cons,
        List.flatMap_nil, Piece.format]
      decide +kernel
  | markFailed k =>
    cases k <;>
    · simp only [pieces, fields, Note.fmt, List.map_cons, List.map_nil, piece, format, List.flatMap_cons,
        List.flatMap_nil, Piece.format]
      decide +kernel
  | _ =>
    simp only [pieces, fields, Note.fmt, List.map_cons, List.map_nil, piece, format, List.flatMap_cons,
      List.flatMap_nil, Piece.format]
    decide +kernel

theorem pieces_args (L : Layout) {n : Note} (h : hasNull n = false) : args (pieces L n) = n.args L := by
  cases n with
  | one m => exact Gotcha.pieces_args h
  | mark k m r =>
    cases k <;>
    · simp [pieces, fields, Note.args, piece, args, Piece.args]
  | markFailed k => cases k <;> rfl
  | _ => simp [pieces, fields, Note.args, piece, args, Piece.args]

theorem pieces_ok (L : Layout) (n : Note) : ∀ q ∈ pieces L n, q.Ok := by
  cases n with
  | one m => exact Gotcha.pieces_ok m
  | mark k m r =>
    cases k <;>
    · simp only [pieces, fields, List.map_cons, List.map_nil, piece, List.forall_mem_cons]
      and_intros <;> first
      | trivial
      | exact toInt_ne _
      | (show ∀ c ∈ _, _; decide +kernel)
      | (intro q hq; cases hq)
  | markFailed k =>
    cases k <;>
    · simp only [pieces, fields, List.map_cons, List.map_nil, piece, List.forall_mem_cons]
      and_intros <;> first
      | trivial
      | exact toInt_ne _
      | (show ∀ c ∈ _, _; decide +kernel)
      | (intro q hq; cases hq)
  | _ =>
    simp only [pieces, fields, List.map_cons, List.map_nil, piece, List.forall_mem_cons]
    and_intros <;> first
      | trivial
      | exact toInt_ne _
      | (show ∀ c ∈ _, _; decide +kernel)
      | (intro q hq; cases hq)

/-- The numbers fit the formats. -/
def Field.Fits : Field → Prop
  | .int z => int32 z
  | .nat n | .hex n => n < 2 ^ 64
  | _ => True

theorem piece_render : ∀ {f : Field}, f.Fits → (piece f).render = f.show
  | .text _, _ | .place _, _ | .str _, _ => rfl
  | .int z, h => by
    show integer ((BitVec.ofInt 64 z).setWidth 32).toInt = integer z
    rw [toInt_int h]
  | .nat n, h => by
    show numeral false 10 ((BitVec.ofNat 64 n).setWidth 64).toNat = _
    rw [BitVec.setWidth_eq, BitVec.toNat_ofNat, Nat.mod_eq_of_lt h]
    rfl
  | .hex n, h => by
    show numeral false 16 ((BitVec.ofNat 64 n).setWidth 64).toNat = _
    rw [BitVec.setWidth_eq, BitVec.toNat_ofNat, Nat.mod_eq_of_lt h]
    rfl
  | .addr a, _ => by
    show [48, 120] ++ numeral false 16 a.toNat = nm "0x" ++ numeral false 16 a.toNat
    congr 1
    decide +kernel

theorem pieces_map_render : ∀ {fs : List Field}, (∀ f ∈ fs, f.Fits) → render (fs.map piece) = «show» fs
  | [], _ => rfl
  | f :: fs, h => by
    have ih := pieces_map_render (fs := fs) (fun g hg => h g (List.mem_cons_of_mem _ hg))
    unfold render «show» at *
    rw [List.map_cons, List.flatMap_cons, List.flatMap_cons, ih, piece_render (h f List.mem_cons_self)]

theorem msg_show (m : Msg) : «show» (msgFields m) = m.says := by
  cases m <;> simp [«show», msgFields, Field.show, Msg.says]

theorem int32_nat {n : Nat} (h : n < 2 ^ 31) : int32 n := ⟨by omega, by omega⟩

theorem fields_fits (L : Layout) {n : Note} (h : Fits n) (h1 : ∀ m, n ≠ .one m) : ∀ f ∈ fields L n, f.Fits := by
  cases n with
  | one m => exact (h1 m rfl).elim
  | mark k m r =>
    cases k <;>
    · simp only [fields, List.forall_mem_cons]
      and_intros <;> first
      | trivial
      | exact BitVec.isLt _
      | (intro q hq; cases hq)
  | markFailed k =>
    cases k <;>
    · simp only [fields, List.forall_mem_cons]
      and_intros <;> first
      | trivial
      | (intro q hq; cases hq)
  | _ =>
    simp only [fields, List.forall_mem_cons]
    and_intros <;> first
      | trivial
      | exact h
      | (simp only [Fits, int32] at h; omega)
      | exact BitVec.isLt _
      | exact Nat.lt_trans (BitVec.isLt _) (by decide)
      | (intro q hq; cases hq)

theorem pieces_render (L : Layout) {n : Note} (h : Fits n) : render (pieces L n) = «show» (fields L n) := by
  by_cases h1 : ∃ m, n = .one m
  · obtain ⟨m, rfl⟩ := h1
    show render m.pieces = «show» (msgFields m)
    rw [Gotcha.pieces_render h, msg_show]
  · by_cases h2 : ∃ g, n = .generation g
    · obtain ⟨g, rfl⟩ := h2
      simp [pieces, render, Piece.render, fields, «show», Field.show, Spec.Printf.Size.bits]
    · have : pieces L n = (fields L n).map piece := by
        cases n <;> first | rfl | exact (h1 ⟨_, rfl⟩).elim | exact (h2 ⟨_, rfl⟩).elim
      rw [this, pieces_map_render (fields_fits L h fun m e => h1 ⟨m, e⟩)]

theorem place_small (n : Note) : n.place.2 < 1000 := by
  cases n with
  | one m => cases m <;> simp [Note.place, Msg.place]
  | newLib u l => cases u <;> simp [Note.place]
  | mark k m r => cases k <;> simp [Note.place]
  | markFailed k => cases k <;> simp [Note.place]
  | _ => simp [Note.place]

theorem head_render (tid pid : BitVec 32) (n : Note) :
    render (prefixPieces tid pid n.place.1 n.place.2) = «show» (head tid pid n) := by
  have : n.place.2 % 4294967296 = n.place.2 := by
    have := place_small n
    omega
  simp [render, prefixPieces, Piece.render, Spec.Printf.Size.bits, «show», head, Field.show, this]

/-- The pieces of a whole line. -/
def linePieces (L : Layout) (tid pid : BitVec 32) (n : Note) : List Piece :=
  match kind n with
  | none => pieces L n
  | some true => .text (nm "ERROR ") :: (prefixPieces tid pid n.place.1 n.place.2 ++ pieces L n)
  | some false => prefixPieces tid pid n.place.1 n.place.2 ++ pieces L n

theorem linePieces_ok (L : Layout) (tid pid : BitVec 32) (n : Note) : ∀ q ∈ linePieces L tid pid n, q.Ok := by
  have h : ∀ q ∈ prefixPieces tid pid n.place.1 n.place.2 ++ pieces L n, q.Ok := by
    intro q hq
    rcases List.mem_append.1 hq with hq | hq
    · exact prefix_ok _ _ _ _ q hq
    · exact pieces_ok L n q hq
  unfold linePieces
  split
  · exact pieces_ok L n
  · refine List.forall_mem_cons.2 ⟨?_, h⟩
    show ∀ c ∈ _, _
    decide +kernel
  · exact h

theorem linePieces_render (L : Layout) (tid pid : BitVec 32) {n : Note} (h : Fits n) :
    render (linePieces L tid pid n) = line L tid pid n := by
  unfold linePieces line
  have e : render (prefixPieces tid pid n.place.1 n.place.2 ++ pieces L n) =
      «show» (head tid pid n) ++ «show» (fields L n) := by
    rw [render_append, head_render, pieces_render L h]
  rcases kind n with _ | (_ | _)
  · exact pieces_render L h
  · exact e
  · show render (.text (nm "ERROR ") :: (prefixPieces tid pid n.place.1 n.place.2 ++ pieces L n)) = _
    rw [show render (.text (nm "ERROR ") :: (prefixPieces tid pid n.place.1 n.place.2 ++ pieces L n)) =
      nm "ERROR " ++ render (prefixPieces tid pid n.place.1 n.place.2 ++ pieces L n) from List.flatMap_cons, e]

theorem linePieces_format (L : Layout) (tid pid : BitVec 32) (n : Note) :
    format (linePieces L tid pid n) = n.pre ++ n.fmt := by
  have e : format (prefixPieces tid pid n.place.1 n.place.2 ++ pieces L n) = nm "[%d/%d][%s:%u] - " ++ n.fmt := by
    rw [format_append, prefix_format, pieces_format]
  have e' : format (.text (nm "ERROR ") :: (prefixPieces tid pid n.place.1 n.place.2 ++ pieces L n)) =
      nm "ERROR [%d/%d][%s:%u] - " ++ n.fmt := by
    rw [show format (.text (nm "ERROR ") :: (prefixPieces tid pid n.place.1 n.place.2 ++ pieces L n)) =
      nm "ERROR " ++ format (prefixPieces tid pid n.place.1 n.place.2 ++ pieces L n) from List.flatMap_cons, e,
      ← List.append_assoc]
    congr 1
    decide +kernel
  cases n <;> first | exact e | exact e' | exact pieces_format L (.willMap _ _ _)

theorem linePieces_args (L : Layout) (tid pid : BitVec 32) {n : Note} (h : hasNull n = false) :
    args (linePieces L tid pid n) = n.preArgs tid pid ++ n.args L := by
  have e : args (prefixPieces tid pid n.place.1 n.place.2 ++ pieces L n) =
      [.int (tid.setWidth 64), .int (pid.setWidth 64), .str n.place.1, .int (BitVec.ofNat 64 n.place.2)] ++ n.args L := by
    rw [args_append, pieces_args L h]
    rfl
  cases n <;> first | exact e | exact pieces_args L h

end Gotcha.Spec.Text
