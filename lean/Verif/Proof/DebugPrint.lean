import Verif.Spec.Debug
import Verif.Proof.Printf
/-
The messages as formats of `gotcha_int_printf`.
-/
namespace Gotcha
open Spec.Printf (Piece format args render integer numeral)

/-- The pieces of a message. -/
def Msg.pieces : Msg → List Piece
  | .wrapCalled tool n => [.text (nm "User called gotcha_wrap for tool "), .str (tool.getD []),
      .text (nm " with "), .signed .int false (BitVec.ofNat 64 n), .text (nm " bindings\n")]
  | .noTool t => [.text (nm "Found no existing tool with name "), .str t, .text (nm "\n")]
  | .newTool t => [.text (nm "Created new tool "), .str t, .text (nm "\n")]
  | .symbol f => [.text (nm "Symbol "), .str f, .text (nm " was found in program\n")]
  | .couldNot k n => [.text (nm "Could not find bindings for "),
      .signed .int false (BitVec.ofNat 64 k), .text (nm " / "),
      .signed .int false (BitVec.ofNat 64 n), .text (nm " functions\n")]
  | .wrapDone => [.text (nm "Gotcha wrap completed successfully\n")]
  | .setPriority t v => [.text (nm "User called gotcha_set_priority("), .str t, .text (nm ", "),
      .signed .int false (BitVec.ofInt 64 v), .text (nm ")\n")]
  | .dlopenCalled file flags => [.text (nm "User called dlopen("), .str (file.getD []),
      .text (nm ", 0x"), .hex .int false (flags.setWidth 64), .text (nm ")\n")]

/-- The pieces in front of every message. -/
def prefixPieces (tid pid : BitVec 32) (file : Name) (line : Nat) : List Piece :=
  [.text (nm "["), .signed .int false (tid.setWidth 64), .text (nm "/"),
    .signed .int false (pid.setWidth 64), .text (nm "]["), .str file, .text (nm ":"),
    .unsigned .int (BitVec.ofNat 64 line), .text (nm "] - ")]

theorem pieces_format (m : Msg) : format m.pieces = m.fmt := by
  cases m with
  | wrapCalled t n =>
    show format (Msg.pieces (.wrapCalled none 0)) = Msg.fmt (.wrapCalled none 0)
    decide +kernel
  | noTool t =>
    show format (Msg.pieces (.noTool [])) = Msg.fmt (.noTool [])
    decide +kernel
  | newTool t =>
    show format (Msg.pieces (.newTool [])) = Msg.fmt (.newTool [])
    decide +kernel
  | symbol t =>
    show format (Msg.pieces (.symbol [])) = Msg.fmt (.symbol [])
    decide +kernel
  | couldNot k n =>
    show format (Msg.pieces (.couldNot 0 0)) = Msg.fmt (.couldNot 0 0)
    decide +kernel
  | wrapDone => decide +kernel
  | setPriority t v =>
    show format (Msg.pieces (.setPriority [] 0)) = Msg.fmt (.setPriority [] 0)
    decide +kernel
  | dlopenCalled t n =>
    show format (Msg.pieces (.dlopenCalled none 0)) = Msg.fmt (.dlopenCalled none 0)
    decide +kernel

theorem prefix_format (tid pid file line) :
    format (prefixPieces tid pid file line) = nm "[%d/%d][%s:%u] - " := by
  rw [show format (prefixPieces tid pid file line) = format (prefixPieces 0 0 [] 0) from rfl]
  decide +kernel

theorem toInt_ne (x : BitVec 64) : (x.setWidth 32).toInt ≠ -(2 ^ 63) := by
  have h1 := BitVec.le_toInt (x.setWidth 32)
  intro h
  rw [h] at h1
  omega

theorem toInt_nat {n : Nat} (h : n < 2 ^ 31) : ((BitVec.ofNat 64 n).setWidth 32).toInt = n := by
  rw [BitVec.toInt_eq_toNat_of_lt]
  · simp only [BitVec.toNat_setWidth, BitVec.toNat_ofNat]
    rw [Nat.mod_eq_of_lt (a := n) (by omega), Nat.mod_eq_of_lt (by omega)]
  · simp only [BitVec.toNat_setWidth, BitVec.toNat_ofNat]
    rw [Nat.mod_eq_of_lt (a := n) (by omega), Nat.mod_eq_of_lt (by omega)]
    omega

theorem toInt_nat32 {n : Nat} (h : n < 2 ^ 31) : (BitVec.ofNat 32 n).toInt = n := by
  have := toInt_nat h
  rwa [BitVec.setWidth_ofNat_of_le (by omega)] at this

theorem integer_len {z : Int} (h : -2 ^ 63 < z ∧ z < 2 ^ 63) : (integer z).length ≤ 21 := by
  unfold integer
  split
  · have := Printf.dec_len false (BitVec.ofNat 64 z.toNat)
    rw [BitVec.toNat_ofNat, Nat.mod_eq_of_lt (by omega)] at this
    omega
  · have := Printf.dec_len false (BitVec.ofNat 64 (-z).toNat)
    rw [BitVec.toNat_ofNat, Nat.mod_eq_of_lt (by omega)] at this
    simp only [List.length_cons]
    omega

theorem integer_len32 (x : BitVec 32) : (integer x.toInt).length ≤ 21 :=
  integer_len ⟨by have := BitVec.le_toInt x; omega, by have := BitVec.toInt_lt (x := x); omega⟩

theorem toInt_int {v : Int} (h : -2 ^ 31 ≤ v ∧ v < 2 ^ 31) :
    ((BitVec.ofInt 64 v).setWidth 32).toInt = v := by
  rw [BitVec.toInt_setWidth, BitVec.toNat_ofInt]
  simp only [Int.bmod]
  omega

theorem pieces_ok (m : Msg) : ∀ q ∈ m.pieces, q.Ok := by
  cases m <;>
  · intro q hq
    simp only [Msg.pieces, List.mem_cons, List.not_mem_nil, or_false] at hq
    rcases hq with rfl | rfl | rfl | rfl | rfl <;>
      first
      | trivial
      | exact toInt_ne _
      | (show ∀ c ∈ _, _; decide +kernel)

theorem prefix_ok (tid pid file line) : ∀ q ∈ prefixPieces tid pid file line, q.Ok := by
  intro q hq
  simp only [prefixPieces, List.mem_cons, List.not_mem_nil, or_false] at hq
  rcases hq with rfl | rfl | rfl | rfl | rfl | rfl | rfl | rfl | rfl <;>
    first
    | trivial
    | exact toInt_ne _
    | (show ∀ c ∈ _, _; decide +kernel)

theorem format_append (a b : List Piece) : format (a ++ b) = format a ++ format b :=
  List.flatMap_append
theorem args_append (a b : List Piece) : args (a ++ b) = args a ++ args b := List.flatMap_append
theorem render_append (a b : List Piece) : render (a ++ b) = render a ++ render b :=
  List.flatMap_append

theorem pieces_args {m : Msg} (h : m.hasNull = false) : args m.pieces = m.args := by
  cases m with
  | wrapCalled t n => cases t with
    | none => cases h
    | some t => rfl
  | dlopenCalled t n => cases t with
    | none => cases h
    | some t => rfl
  | _ => rfl

theorem pieces_render {m : Msg} (h : m.Fits) : render m.pieces = m.says := by
  cases m with
  | wrapCalled t n =>
    simp [render, Msg.pieces, Piece.render, Spec.Printf.Size.bits, Msg.says, toInt_nat32 h]
  | couldNot k n =>
    simp [render, Msg.pieces, Piece.render, Spec.Printf.Size.bits, Msg.says, toInt_nat32 h.1,
      toInt_nat32 h.2]
  | setPriority t v =>
    simp [render, Msg.pieces, Piece.render, Spec.Printf.Size.bits, Msg.says, toInt_int h]
  | dlopenCalled t n =>
    simp [render, Msg.pieces, Piece.render, Spec.Printf.Size.bits, Msg.says]
  | _ => simp [render, Msg.pieces, Piece.render, Msg.says]

theorem prefix_render (tid pid : BitVec 32) (m : Msg) (h : m.Fits) :
    render (prefixPieces tid pid m.place.1 m.place.2 ++ m.pieces) = m.line tid pid := by
  rw [render_append, pieces_render h]
  have : m.place.2 % 4294967296 = m.place.2 := by
    have : m.place.2 < 1000 := by cases m <;> simp [Msg.place]
    omega
  simp [render, prefixPieces, Piece.render, Spec.Printf.Size.bits, Msg.line, this]

theorem print_null {junk : Name → List UInt8} (hj : ∀ f, (junk f).length = 64) {buf : List UInt8}
    (hb : buf.length = 4096) (tid pid : BitVec 32) {m : Msg} {txt tail : Name} {more}
    (h1 : m.fmt = txt ++ 37 :: 115 :: tail) (h2 : ∀ c ∈ txt, c ≠ 37 ∧ c ≠ 0)
    (h3 : m.args = .null :: more) (h4 : txt.length < 1000) :
    m.print junk buf tid pid = .error .nullDeref := by
  have hps : ∀ q ∈ prefixPieces tid pid m.place.1 m.place.2 ++ [.text txt], q.Ok := by
    intro q hq
    rcases List.mem_append.1 hq with hq | hq
    · exact prefix_ok _ _ _ _ q hq
    · rw [List.mem_singleton] at hq
      subst hq
      exact h2
  have hlen : (render (prefixPieces tid pid m.place.1 m.place.2 ++ [.text txt])).length < 2 ^ 31 := by
    have h5 := integer_len32 tid
    have h6 := integer_len32 pid
    have h7 : m.place.1.length ≤ 20 := by
      cases m <;> (simp only [Msg.place]; decide +kernel)
    have h8 := Printf.dec_len false ((BitVec.ofNat 64 m.place.2).setWidth 32 |>.setWidth 64)
    rw [BitVec.toNat_setWidth_of_le (by omega)] at h8
    have k1 : (nm "[").length ≤ 4 := by decide +kernel
    have k2 : (nm "/").length ≤ 4 := by decide +kernel
    have k3 : (nm "][").length ≤ 4 := by decide +kernel
    have k4 : (nm ":").length ≤ 4 := by decide +kernel
    have k5 : (nm "] - ").length ≤ 4 := by decide +kernel
    rw [render_append]
    simp only [prefixPieces, render, List.flatMap_cons, List.flatMap_nil, Piece.render,
      Spec.Printf.Size.bits, List.length_append, List.append_nil]
    rw [BitVec.setWidth_setWidth_of_le _ (by omega), BitVec.setWidth_setWidth_of_le _ (by omega),
      BitVec.setWidth_eq, BitVec.setWidth_eq]
    omega
  have h := Printf.loop_null hj tail more (prefixPieces tid pid m.place.1 m.place.2 ++ [.text txt])
    ((nm "[%d/%d][%s:%u] - " ++ m.fmt).length + 1) hps (by
      rw [format_append, prefix_format, h1]
      simp only [List.length_append, format, List.flatMap_cons, List.flatMap_nil, Piece.format,
        List.append_nil, List.length_cons]
      omega) (Printf.Inv.init hb) (by simpa using hlen)
  rw [format_append, prefix_format, args_append] at h
  unfold Msg.print Printf.printf
  rw [show [Printf.Arg.int (tid.setWidth 64), .int (pid.setWidth 64), .str m.place.1,
    .int (BitVec.ofNat 64 m.place.2)] = args (prefixPieces tid pid m.place.1 m.place.2) from rfl, h3]
  rw [show format [Piece.text txt] = txt from List.append_nil _,
    show args [Piece.text txt] = [] from rfl, List.append_nil, List.append_assoc, ← h1] at h
  rw [h]

end Gotcha
