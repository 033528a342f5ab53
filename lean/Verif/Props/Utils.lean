import Verif.Proof.LibList
import Verif.Proof.Number
import Verif.Props.LibC
/-
Properties C62-C64: the debug level, the list of library records, failed assertions.
-/
namespace Gotcha.Utils
open Gotcha LibC Spec.LibC Spec.Utils

/-! ### C62 -/

/-- The level that the value of GOTCHA_DEBUG asks for. -/
def wanted (k : Nat) (ds : Name) : Int :=
  if (-1) ^ k * (decimal ds : Int) ≤ 0 then 1 else (-1) ^ k * (decimal ds : Int)

/-- C62: when GOTCHA_DEBUG is not in the environment, GOTCHA prints no message of any level and no
error. -/
theorem C62_silent {m : Mem} {p : Addr} (hn : CStr m p (nm "GOTCHA_DEBUG")) (env : List (Addr × Name))
    (he : ∀ e ∈ env, CStr m e.1 e.2) (hno : ∀ e ∈ env, ¬ EnvDefines (nm "GOTCHA_DEBUG") e.2) :
    ∃ d, debugInit m p (env.map (·.1)) {} = .ok d ∧ d.initialized = true ∧ errorShown d = false ∧
      ∀ lvl, 1 ≤ lvl → debugShown d lvl = false := by
  obtain ⟨r, h1, h2, h3⟩ := C42_getenv hn (by decide +kernel) env he
  cases r with
  | some q =>
    obtain ⟨b, e, v, a, rfl, -, h4, -⟩ := h3 q rfl
    exact absurd ⟨v, h4⟩ (hno e (by simp))
  | none =>
    refine ⟨{ initialized := true }, ?_, rfl, rfl, ?_⟩
    · simp only [debugInit, h1, Bool.false_eq_true, if_false]
    · intro lvl hl
      simp only [debugShown, decide_eq_false_iff_not]
      show ¬ (0 : Int) ≥ lvl
      omega

/-- C62: when it is set to an optional sign, digits (at most nine) and anything else, the level is the
number, and at least 1: also `GOTCHA_DEBUG=0`, a negative number or plain text switch messages on.
The first entry that defines the variable counts. -/
theorem C62_level {m : Mem} {p : Addr} (hn : CStr m p (nm "GOTCHA_DEBUG"))
    (before after : List (Addr × Name)) (e : Addr × Name) (value : Name)
    (he : ∀ x ∈ before ++ e :: after, CStr m x.1 x.2)
    (hb : ∀ x ∈ before, ¬ EnvDefines (nm "GOTCHA_DEBUG") x.2)
    (hv : e.2 = nm "GOTCHA_DEBUG" ++ 61 :: value) {k : Nat} {ds : Name} {c : UInt8}
    (hnum : ∀ q, CStr m q value → Numeral m q k ds c) (hl : ds.length ≤ 9) :
    ∃ d, debugInit m p ((before ++ e :: after).map (·.1)) {} = .ok d ∧ d.initialized = true ∧
      d.level = wanted k ds ∧ 1 ≤ d.level ∧ errorShown d = true ∧
      ∀ lvl, debugShown d lvl = true ↔ lvl ≤ wanted k ds := by
  obtain ⟨r, h1, h2, h3⟩ := C42_getenv hn (by decide +kernel) (before ++ e :: after) he
  cases r with
  | none => exact absurd ⟨value, hv⟩ (h2 rfl e (by simp))
  | some q =>
    obtain ⟨b, e', v, a, heq, hb', h4, h5⟩ := h3 q rfl
    -- the same entry
    have hee : e' = e := by
      rcases List.append_eq_append_iff.1 heq with ⟨as, h6, h7⟩ | ⟨as, h6, h7⟩
      · cases as with
        | nil => simp only [List.nil_append, List.cons.injEq] at h7; exact h7.1.symm
        | cons x as =>
          simp only [List.cons_append, List.cons.injEq] at h7
          exact absurd ⟨value, hv⟩ (hb' e (by rw [h6, h7.1]; simp))
      · cases as with
        | nil => simp only [List.nil_append, List.cons.injEq] at h7; exact h7.1
        | cons x as =>
          simp only [List.cons_append, List.cons.injEq] at h7
          exact absurd ⟨v, h4⟩ (hb e' (by rw [h6, h7.1]; simp))
    have hvv : v = value := by
      rw [hee, hv] at h4
      have := List.append_cancel_left h4
      exact (List.cons.inj this).2.symm
    rw [hvv] at h5
    have ha := C43_atoi (hnum q h5) hl
    have hw : 1 ≤ wanted k ds := by unfold wanted; split <;> omega
    refine ⟨{ level := wanted k ds, initialized := true }, ?_, rfl, rfl, hw, ?_, ?_⟩
    · simp only [debugInit, h1, ha, Bool.false_eq_true, if_false]; rfl
    · have : wanted k ds ≠ 0 := by omega
      simp [errorShown, this]
    · intro lvl; simp [debugShown]

/-- C62: later calls change nothing. -/
theorem C62_once {m : Mem} {p : Addr} {env : List Addr} {d d' : Debug}
    (h : debugInit m p env d = .ok d') (m' : Mem) (p' : Addr) (env' : List Addr) :
    debugInit m' p' env' d' = .ok d' := by
  have hd : d'.initialized = true := by
    unfold debugInit at h
    split at h
    · next hi => cases h; exact hi
    · simp only at h
      split at h
      · cases h
      · cases h; rfl
      · split at h
        · cases h
        · cases h; rfl
  unfold debugInit
  rw [if_pos hd]

/-- The literal, `GOTCHA_DEBUG=0` and an unrelated entry. -/
def dbgMem : Mem := both (at_ 0x1000 (nm "GOTCHA_DEBUG" ++ [0]))
  (both (at_ 0x2000 (nm "GOTCHA_DEBUG=0" ++ [0])) (at_ 0x3000 (nm "GOTCHA_DEBUGGER=3" ++ [0])))

instance decCStr (m : Mem) : ∀ (p : Addr) (s : Name), Decidable (CStr m p s)
  | p, [] => inferInstanceAs (Decidable (m p = some 0))
  | p, c :: s =>
    have := decCStr m (p + 1) s
    inferInstanceAs (Decidable (c ≠ 0 ∧ m p = some c ∧ CStr m (p + 1) s))

/-- Without an entry for the variable nothing is printed; `GOTCHA_DEBUG=0` gives level 1. -/
example : (∃ d, debugInit dbgMem 0x1000 [0x3000] {} = .ok d ∧ errorShown d = false) ∧
    ∃ d, debugInit dbgMem 0x1000 [0x3000, 0x2000] {} = .ok d ∧ d.level = 1 := by
  have hno : ¬ EnvDefines (nm "GOTCHA_DEBUG") (nm "GOTCHA_DEBUGGER=3") := by
    rintro ⟨v, h⟩
    have h12 := congrArg (fun l => l[12]?) h
    have e1 : (nm "GOTCHA_DEBUGGER=3")[12]? = some 71 := by decide +kernel
    have e2 : (nm "GOTCHA_DEBUG" ++ 61 :: v)[12]? = some 61 := by
      rw [List.getElem?_append_right (by decide +kernel), show 12 - (nm "GOTCHA_DEBUG").length = 0 by decide +kernel]
      rfl
    rw [e1, e2] at h12
    cases h12
  have hn : CStr dbgMem 0x1000 (nm "GOTCHA_DEBUG") := by decide +kernel
  have h2 : CStr dbgMem 0x2000 (nm "GOTCHA_DEBUG=0") := by decide +kernel
  have h3 : CStr dbgMem 0x3000 (nm "GOTCHA_DEBUGGER=3") := by decide +kernel
  constructor
  · obtain ⟨d, h, -, h', -⟩ := C62_silent hn [(0x3000, nm "GOTCHA_DEBUGGER=3")]
      (by intro e he; rw [List.mem_singleton.1 he]; exact h3)
      (by intro e he; rw [List.mem_singleton.1 he]; exact hno)
    exact ⟨d, h, h'⟩
  · obtain ⟨d, h, -, h', -⟩ := C62_level (k := 0) (ds := [48]) (c := 0) hn
      [(0x3000, nm "GOTCHA_DEBUGGER=3")] [] (0x2000, nm "GOTCHA_DEBUG=0") [48]
      (by
        intro e he
        simp only [List.cons_append, List.nil_append, List.mem_cons, List.not_mem_nil, or_false] at he
        rcases he with rfl | rfl
        · exact h3
        · exact h2)
      (by intro e he; rw [List.mem_singleton.1 he]; exact hno) (by decide +kernel)
      (by
        rintro q ⟨-, h1, h2⟩
        exact ⟨⟨h1, h2, trivial⟩, by intro d hd; rw [List.mem_singleton.1 hd]; unfold IsDigit; decide,
          by unfold IsDigit; decide, by intro h; cases h⟩)
      (by decide)
    exact ⟨d, h, h'⟩

/-! ### C63 -/

/-- C63: however libraries are put on record and removed, the code does not fault, the records form
the doubly linked list of the libraries on record, the most recent first, and `get_library` finds the
record of exactly those libraries.  (Provided no two libraries collide in the 32-bit hash, C27.) -/
theorem C63_library_list {hash : Addr → BitVec 32} {page : Nat} (hp : 48 ≤ page) (ops : List LibOp)
    (A : List Addr) (hinj : ∀ a ∈ A, ∀ b ∈ A, hash a = hash b → a = b)
    (hA : ∀ op ∈ ops, addrOf op ∈ A) :
    ∃ t l, HTable.create page 128 = .ok t ∧
      libRun hash ops { store := [], head := none, tab := t } = .ok l ∧ ListOf l (libsAfter ops) ∧
      ∀ a ∈ A, ∃ r, l.get hash a = .ok r ∧ (r = none ↔ a ∉ libsAfter ops) ∧
        ∀ i, r = some i → ∃ n, l.deref i = .ok n ∧ n.map = a := by
  obtain ⟨t, ht, hm⟩ := create_tab (D := Nat) hash hp (show 0 < 128 by decide)
  obtain ⟨l, L, h1, h2, h3⟩ := libRun_inv hinj ops (l := { store := [], head := none, tab := t })
    (L := []) (S := []) ⟨⟨_, hm, by simp⟩, trivial, List.nodup_nil, rfl, List.nodup_nil⟩ (by simp) hA
  refine ⟨t, l, ht, h1, h2.listOf, ?_⟩
  intro a ha
  obtain ⟨g1, g2⟩ := h2.get hinj h3 ha
  by_cases haS : a ∈ libsAfter ops
  · obtain ⟨i, -, hia, hget⟩ := g1 haS
    refine ⟨some i, hget, by simp [haS], ?_⟩
    intro j e
    cases e
    obtain ⟨n, hn, hna⟩ := mapAt_some hia
    exact ⟨n, by simp [LibList.deref, hn], hna⟩
  · exact ⟨none, g2 haS, by simp [haS], by intro i e; cases e⟩

/-- Three libraries come, the one in the middle of the list goes, another comes, the first one goes. -/
example : libsAfter [.ensure 0x10, .ensure 0x20, .ensure 0x30, .remove 0x20, .ensure 0x40, .ensure 0x30,
    .remove 0x10] = [0x40, 0x30] ∧
    (∀ a ∈ [0x10, 0x20, 0x30, 0x40], ∀ b ∈ [(0x10 : Addr), 0x20, 0x30, 0x40],
      (fun x : Addr => x.setWidth 32) a = (fun x : Addr => x.setWidth 32) b → a = b) := by
  refine ⟨by decide +kernel, ?_⟩
  intro a ha b hb
  simp only [List.mem_cons, List.not_mem_nil, or_false] at ha hb
  rcases ha with rfl | rfl | rfl | rfl <;> rcases hb with rfl | rfl | rfl | rfl <;> decide

/-! ### C64 -/

/-- C64: a failed assertion prints one complete line with the file, the line number in decimal, the
function and the asserted expression. -/
theorem C64_assert_message (junk : List UInt8) (hj : junk.length = 64) (s file : Name)
    (line : BitVec 32) (function : Name) :
    ∃ num, Spec.Printf.Denotes false 10 line.toNat num ∧
      assertFail junk s file line function =
        .ok (file ++ nm ":" ++ num ++ nm ": " ++ function ++ nm ": Assertion `" ++ s ++
          nm "' failed.\n") := by
  have h := Printf.ulongToStr_spec (line.setWidth 64) 0 63 junk (by omega) (by omega)
  have ht : (line.setWidth 64).toNat = line.toNat := by
    rw [BitVec.toNat_setWidth, Nat.mod_eq_of_lt (by have := line.isLt; omega)]
  rw [ht, List.take_zero, List.nil_append] at h
  refine ⟨_, Printf.numeral_denotes (by omega) (by omega) _, ?_⟩
  unfold assertFail
  rw [show (64 - 1 : Int) = 63 from rfl, h]
  have hne : ¬ (((Spec.Printf.numeral false 10 line.toNat).length : Int) = -1) := by omega
  simp only [if_neg hne, Printf.cstrOf_append _ _ (Printf.numeral_nonzero (u := false) (b := 10) (by omega) (by omega) line.toNat)]

example : (assertFail (List.replicate 64 7) (nm "x > 0") (nm "tool.c") 42 (nm "f")) =
    .ok (nm "tool.c:42: f: Assertion `x > 0' failed.\n") := by decide +kernel

end Gotcha.Utils
