import Verif.Props.Printf
import Verif.Spec.Writes
/-
C134: the system calls behind a message, and what is left of it when the kernel does not take everything.
-/
namespace Gotcha.Printf
open Gotcha Gotcha.LibC Gotcha.Spec.Printf

/-- C134.  A message of any length goes out in full buffers of 4096 bytes and one last write of what is left (one
more write for an empty message), which together are what C46 says; the return value does not depend on what the
kernel makes of them. -/
theorem C134_writes {junk : Name → List UInt8} (hj : ∀ f, (junk f).length = 64) {buf : List UInt8}
    (hb : buf.length = 4096) (ps : List Piece) (hok : ∀ p ∈ ps, p.Ok) (extra : List Arg)
    (hl : (render ps).length < 2 ^ 31) :
    ∃ full last, printfWrites junk buf (format ps) (args ps ++ extra) =
        .ok ((render ps).length, full ++ [last]) ∧
      printf junk buf (format ps) (args ps ++ extra) = .ok ((render ps).length, (full ++ [last]).flatten) ∧
      (∀ w ∈ full, w.length = 4096) ∧ last.length ≤ 4096 ∧ (full ≠ [] → last ≠ []) := by
  obtain ⟨st, h1, h2⟩ := loop_pieces hj extra ps ((format ps).length + 1) hok (by omega)
    (Inv.init hb) (by simpa using hl)
  rw [List.nil_append] at h2
  obtain ⟨g1, g2, g3⟩ := h2.final hl
  have hp := h2.pos
  have hs := h2.size
  refine ⟨st.writes, st.buf.take st.pos, ?_, ?_, h2.full, by rw [List.length_take]; omega, ?_⟩
  · unfold printfWrites
    rw [h1]
    simp only
    rw [g1]
  · unfold printf
    rw [h1]
    simp only
    rw [g1, List.flatten_append, h2.flat]
    simp
  · intro hne he
    obtain ⟨k, -, -, k3, k4, -⟩ := h2.flushed
    have hk : k ≠ 0 := by
      rintro rfl
      obtain ⟨w, ws, e⟩ := List.exists_cons_of_ne_nil hne
      have hw := h2.full w (by rw [e]; simp)
      have := h2.flat
      rw [e] at this
      have hlen := congrArg List.length this
      rw [k3, List.flatten_cons, List.length_append] at hlen
      omega
    have := k4 hk
    have hz := congrArg List.length he
    rw [List.length_take, List.length_nil] at hz
    omega

/-- C134.  A message of at most 4096 characters is one system call: no other output comes in between. -/
theorem C134_one_write {junk : Name → List UInt8} (hj : ∀ f, (junk f).length = 64) {buf : List UInt8}
    (hb : buf.length = 4096) (ps : List Piece) (hok : ∀ p ∈ ps, p.Ok) (extra : List Arg)
    (hl : (render ps).length ≤ 4096) :
    printfWrites junk buf (format ps) (args ps ++ extra) = .ok ((render ps).length, [render ps]) := by
  obtain ⟨full, last, h1, h2, h3, -, h5⟩ := C134_writes hj hb ps hok extra (by omega)
  rw [C45_printf hj hb ps hok extra hl] at h2
  have h2' : render ps = (full ++ [last]).flatten := by injection h2 with h2; exact congrArg Prod.snd h2
  cases full with
  | nil => rw [h1, h2']; simp
  | cons w ws =>
    exfalso
    have hw := h3 w (by simp)
    have hlast := List.length_pos_iff.2 (h5 (by simp))
    have := congrArg List.length h2'
    simp only [List.cons_append, List.flatten_cons, List.flatten_append, List.length_append, List.flatten_nil,
      List.append_nil] at this
    omega

theorem arrived_length (acc : Nat → Nat) (ws : List (List UInt8)) :
    (arrived acc ws).length ≤ ws.flatten.length := by
  induction ws generalizing acc with
  | nil => simp [arrived]
  | cons w ws ih =>
    have := ih fun i => acc (i + 1)
    simp only [arrived, List.length_append, List.length_take, List.flatten_cons]
    omega

/-- C134.  Everything arrives exactly if the kernel takes all of each buffer: what one write leaves is never written
again, whatever comes after it. -/
theorem C134_arrives (acc : Nat → Nat) (ws : List (List UInt8)) :
    arrived acc ws = ws.flatten ↔ ∀ i w, ws[i]? = some w → w.length ≤ acc i := by
  induction ws generalizing acc with
  | nil => simp [arrived]
  | cons w ws ih =>
    constructor
    · intro h
      have hlen := congrArg List.length h
      have hle := arrived_length (fun i => acc (i + 1)) ws
      simp only [arrived, List.length_append, List.length_take, List.flatten_cons] at hlen
      have hw : w.length ≤ acc 0 := by omega
      rw [arrived, List.take_of_length_le hw, List.flatten_cons] at h
      have := (ih _).1 (List.append_cancel_left h)
      intro i v hv
      cases i with
      | zero => cases hv; exact hw
      | succ i => exact this i v hv
    · intro h
      rw [arrived, List.take_of_length_le (h 0 w rfl), (ih _).2 fun i v hv => h (i + 1) v hv, List.flatten_cons]

theorem writes_ab : printfWrites (fun _ => List.replicate 64 7) (List.replicate 4096 7) (format [.text [97, 98]])
    (args [.text [97, 98]] ++ []) = .ok (2, [[97, 98]]) :=
  C134_one_write (junk := fun _ => List.replicate 64 7) (buf := List.replicate 4096 7)
    (fun _ => List.length_replicate) List.length_replicate [.text [97, 98]]
    (by intro p hp; rw [List.mem_singleton.1 hp]; show ∀ c ∈ [97, 98], c ≠ 37 ∧ c ≠ 0; decide) []
    (by show 2 ≤ 4096; decide)

/-- The message "ab". -/
example : printfWrites (fun _ => List.replicate 64 7) (List.replicate 4096 7) [97, 98] [] =
    .ok (2, [[97, 98]]) := writes_ab

/-- A short first write leaves a gap in the middle of the text. -/
example : arrived (fun i => if i = 0 then 1 else 5) [[97, 98], [99, 100]] = [97, 99, 100] := by decide

/-- C134, the limits: the return value is not the number of bytes that arrived; the result of gotcha_write is
ignored. -/
theorem C134_return_refuted :
    ¬ ∀ (junk : Name → List UInt8) (buf : List UInt8) (ps : List Piece) (acc : Nat → Nat) (n : Int)
      (ws : List (List UInt8)), (∀ f, (junk f).length = 64) → buf.length = 4096 → (∀ p ∈ ps, p.Ok) →
      printfWrites junk buf (format ps) (args ps ++ []) = .ok (n, ws) → n = (arrived acc ws).length := by
  intro h
  have := h _ _ [.text [97, 98]] (fun _ => 1) _ _ (fun _ => List.length_replicate) List.length_replicate
    (by intro p hp; rw [List.mem_singleton.1 hp]; show ∀ c ∈ [97, 98], c ≠ 37 ∧ c ≠ 0; decide) writes_ab
  exact absurd this (by decide)

end Gotcha.Printf
