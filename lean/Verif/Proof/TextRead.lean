import Verif.Proof.Text
import Verif.Proof.Number
/-
The line of a message determines the message.
-/
namespace Gotcha.Spec.Text
open Spec.Printf (integer numeral)
open Gotcha.Printf (numeral_denotes)

/-- The parts of a line without the values. -/
inductive Sh where
  | text (s : Name)
  | place
  | str
  | int
  | nat
  | hex
  | addr
  deriving DecidableEq

def sh : Field → Sh
  | .text s => .text s
  | .place _ => .place
  | .str _ => .str
  | .int _ => .int
  | .nat _ => .nat
  | .hex _ => .hex
  | .addr _ => .addr

def isDigit (c : UInt8) : Bool := 48 ≤ c ∧ c ≤ 57
def isHex (c : UInt8) : Bool := isDigit c || (97 ≤ c ∧ c ≤ 102)

/-- A character that the part cannot contain. -/
def Sh.sep : Sh → UInt8 → Bool
  | .text _, _ => false
  | .place, c => c == 58
  | .str, c => c == 32 || c == 10
  | .int, c => !(isDigit c || c == 45)
  | .nat, c => !isDigit c
  | .hex, c => !isHex c
  | .addr, c => !(isHex c || c == 120)

/-- Every value is followed by a text with a character that the value cannot contain. -/
def apart : List Sh → Bool
  | [] => true
  | .text _ :: l => apart l
  | k :: .text t :: l => t.any k.sep && apart l
  | _ => false

/-- The names are such that they can be found in the line. -/
def Field.Clear : Field → Prop
  | .place s => ∀ c ∈ s, c ≠ 58
  | .str s => plain s
  | _ => True

theorem numeral_char {b n : Nat} (hb : 2 ≤ b) (h16 : b ≤ 16) {c : UInt8} (h : c ∈ numeral false b n) :
    isHex c = true ∧ (b = 10 → isDigit c = true) := by
  obtain ⟨d, hd, rfl⟩ := (numeral_denotes hb h16 n).digits c h
  have : ∀ d < 16, isHex (Spec.Printf.digitChar false d) = true := by decide
  have h2 : ∀ d < 10, isDigit (Spec.Printf.digitChar false d) = true := by decide
  exact ⟨this d (by omega), fun e => h2 d (by omega)⟩

theorem numeral_inj {b m n : Nat} (hb : 2 ≤ b) (h16 : b ≤ 16) (h : numeral false b m = numeral false b n) : m = n := by
  rw [← (numeral_denotes hb h16 m (u := false)).value, h, (numeral_denotes hb h16 n).value]

theorem integer_inj {y z : Int} (h : integer y = integer z) : y = z := by
  have key : ∀ m n : Nat, numeral false 10 m ≠ 45 :: numeral false 10 n := by
    intro m n e
    have := (numeral_char (b := 10) (by omega) (by omega) (c := 45) (n := m) (by rw [e]; simp)).2 rfl
    revert this
    decide
  unfold integer at h
  split at h <;> split at h
  · have := numeral_inj (by omega) (by omega) h
    omega
  · exact (key _ _ h).elim
  · exact (key _ _ h.symm).elim
  · have := numeral_inj (by omega) (by omega) (List.cons.inj h).2
    omega

theorem sep_free {f : Field} (h : f.Clear) (c : UInt8) (hc : c ∈ f.show) : (sh f).sep c = false := by
  cases f with
  | text s => rfl
  | place s => simpa [sh, Sh.sep] using h c hc
  | str s => simpa [sh, Sh.sep] using h c hc
  | int z =>
    change c ∈ integer z at hc
    unfold integer at hc
    split at hc
    · simp [sh, Sh.sep, (numeral_char (by omega) (by omega) hc).2 rfl]
    · rcases List.mem_cons.1 hc with rfl | hc
      · show Sh.sep .int 45 = false
        decide
      · simp [sh, Sh.sep, (numeral_char (by omega) (by omega) hc).2 rfl]
  | nat n => simp [sh, Sh.sep, (numeral_char (by omega) (by omega) hc).2 rfl]
  | hex n => simp [sh, Sh.sep, (numeral_char (by omega) (by omega) hc).1]
  | addr a =>
    change c ∈ nm "0x" ++ numeral false 16 a.toNat at hc
    rw [show nm "0x" = [48, 120] by decide +kernel] at hc
    rcases List.mem_append.1 hc with hc | hc
    · simp only [List.mem_cons, List.not_mem_nil, or_false] at hc
      rcases hc with rfl | rfl <;> (simp only [sh]; decide)
    · simp [sh, Sh.sep, (numeral_char (by omega) (by omega) hc).1]

theorem show_inj {f g : Field} (hs : sh f = sh g) (h : f.show = g.show) : f = g := by
  cases f <;> cases g <;> simp only [sh, reduceCtorEq, Sh.text.injEq] at hs <;> simp only [Field.show] at h
  · rw [hs]
  · rw [h]
  · rw [h]
  · rw [integer_inj h]
  · rw [numeral_inj (by omega) (by omega) h]
  · rw [numeral_inj (by omega) (by omega) h]
  · rw [BitVec.eq_of_toNat_eq (numeral_inj (by omega) (by omega) (List.append_cancel_left h))]

theorem cut {P : UInt8 → Bool} {a b t r r' : Name} (ha : ∀ c ∈ a, P c = false) (hb : ∀ c ∈ b, P c = false)
    (ht : t.any P = true) (h : a ++ (t ++ r) = b ++ (t ++ r')) : a = b := by
  have key : ∀ (a r : Name), (∀ c ∈ a, P c = false) →
      (a ++ (t ++ r)).takeWhile (fun c => !P c) = a ++ t.takeWhile (fun c => !P c) := by
    intro a r ha
    rw [List.takeWhile_append_of_pos (by simpa using ha)]
    congr 1
    clear h ha hb
    induction t with
    | nil => cases ht
    | cons c t ih =>
      simp only [List.any_cons, Bool.or_eq_true] at ht
      cases hc : P c with
      | true => simp [hc]
      | false =>
        rw [hc] at ht
        simp [hc, ih (ht.resolve_left (by simp))]
  have := key a r ha
  rw [h, key b r' hb] at this
  exact (List.append_cancel_right this).symm

/-- Lines of the same shape: the values can be read off, and what follows the line as well. -/
theorem read : ∀ {fs gs : List Field} {r r' : Name}, fs.map sh = gs.map sh → apart (fs.map sh) = true →
    (∀ f ∈ fs, f.Clear) → (∀ g ∈ gs, g.Clear) → «show» fs ++ r = «show» gs ++ r' → fs = gs ∧ r = r'
  | [], [], _, _, _, _, _, _, h => ⟨rfl, h⟩
  | [], _ :: _, _, _, hs, _, _, _, _ => by simp at hs
  | _ :: _, [], _, _, hs, _, _, _, _ => by simp at hs
  | f :: fs, g :: gs, r, r', hs, ha, hf, hg, h => by
    simp only [List.map_cons, List.cons.injEq] at hs
    obtain ⟨h1, h2⟩ := hs
    have hfs : ∀ f ∈ fs, f.Clear := fun x hx => hf x (List.mem_cons_of_mem _ hx)
    have hgs : ∀ f ∈ gs, f.Clear := fun x hx => hg x (List.mem_cons_of_mem _ hx)
    rw [show «show» (f :: fs) = f.show ++ «show» fs from rfl, show «show» (g :: gs) = g.show ++ «show» gs from rfl,
      List.append_assoc, List.append_assoc] at h
    by_cases ht : ∃ s, f = .text s
    · obtain ⟨s, rfl⟩ := ht
      have hg' : g = .text s := by
        cases g <;> simp only [sh, reduceCtorEq, Sh.text.injEq] at h1
        rw [h1]
      subst hg'
      obtain ⟨h3, h4⟩ := read h2 ha hfs hgs (List.append_cancel_left h)
      exact ⟨by rw [h3], h4⟩
    · match fs, gs, h2, ha, hfs, hgs, h with
      | [], _, _, ha, _, _, _ =>
        cases f <;> first | exact (ht ⟨_, rfl⟩).elim | simp [apart, sh] at ha
      | f' :: fs, [], h2, _, _, _, _ => simp at h2
      | f' :: fs, g' :: gs, h2, ha, hfs, hgs, h =>
        have hx : ∃ t, f' = .text t ∧ t.any (sh f).sep = true ∧ apart (fs.map sh) = true := by
          cases f <;> first
            | exact (ht ⟨_, rfl⟩).elim
            | (cases f' <;> simp [apart, sh] at ha
               exact ⟨_, rfl, by simpa [sh] using ha.1, ha.2⟩)
        obtain ⟨t, rfl, hsep, hap⟩ := hx
        have hg' : g' = .text t := by
          simp only [List.map_cons, List.cons.injEq] at h2
          have h2 := h2.1
          cases g' <;> simp only [sh, reduceCtorEq, Sh.text.injEq] at h2
          rw [h2]
        subst hg'
        rw [show «show» (.text t :: fs) = t ++ «show» fs from rfl, show «show» (.text t :: gs) = t ++ «show» gs from rfl,
          List.append_assoc, List.append_assoc] at h
        have e := cut (P := (sh f).sep) (fun c hc => sep_free (hf f List.mem_cons_self) c hc)
          (fun c hc => by rw [h1]; exact sep_free (hg g List.mem_cons_self) c hc) hsep h
        have e' := show_inj h1 e
        subst e'
        have h' := List.append_cancel_left h
        simp only [List.map_cons, List.cons.injEq] at h2
        obtain ⟨h3, h4⟩ := read (r := r) (r' := r') h2.2 hap
          (fun x hx => hfs x (List.mem_cons_of_mem _ hx)) (fun x hx => hgs x (List.mem_cons_of_mem _ hx))
          (List.append_cancel_left h')
        exact ⟨by rw [h3], h4⟩

end Gotcha.Spec.Text
