import Verif.Spec.Order
/-
What is loaded after a history, and which definition of a function is the real one.
-/
namespace Gotcha.Spec

/-- Effect of an event on the link map. -/
def loadStep (libs : List Lib) : Op → List Lib
  | .dlopen ld => libs ++ ld.libs
  | .load ld => libs ++ ld.libs
  | .unload dead => libs.filter (fun l => !dead l.lm)
  | _ => libs

/-- The link map after a history. -/
def libsAfter (libs : List Lib) (ops : List Op) : List Lib := ops.foldl loadStep libs

/-- The vdso: what detection says on the link map at the first API call. -/
def vdsoAfter (env : Env) : List Lib → List Op → Option Addr
  | _, [] => none
  | libs, op :: ops => if isApi op then env.vdsoOf libs else vdsoAfter env (loadStep libs op) ops

/-- Events at which `f` is looked for among the loaded objects: its first registration, and every
intercepted dlopen after that. -/
def isTry (env : Env) (f : Name) (done : List Op) (op : Op) : Bool :=
  match op with
  | .dlopen _ => !(registered env done f).isEmpty
  | _ => (registered env done f).isEmpty && !(registered env (done ++ [op]) f).isEmpty

/-- The link maps on which `f` is looked for, in order. -/
def tries (env : Env) (libs : List Lib) (f : Name) : List Op → List Op → List (List Lib)
  | _, [] => []
  | done, op :: rest =>
    (if isTry env f done op then [libsAfter libs (done ++ [op])] else []) ++
      tries env libs f (done ++ [op]) rest

/-- The real function `f`: the first definition in link-map order at the first of those events at
which there is one. -/
def realAfter (env : Env) (libs : List Lib) (ops : List Op) (f : Name) : Option Addr :=
  (tries env libs f [] ops).findSome? (fun ls => firstDef (vdsoAfter env libs ops) ls f)

/-- `firstDef` spelled out. -/
theorem firstDef_iff (v : Option Addr) (ls : List Lib) (f : Name) (a : Addr) :
    firstDef v ls f = some a ↔ ∃ l1 l l2, ls = l1 ++ l :: l2 ∧ v ≠ some l.lm ∧
      exportsAt l f = some a ∧ ∀ l' ∈ l1, v = some l'.lm ∨ exportsAt l' f = none := by
  induction ls with
  | nil => simp [firstDef]
  | cons x ls ih =>
    unfold firstDef at ih ⊢
    rw [List.findSome?_cons]
    cases hx : (if v = some x.lm then none else exportsAt x f) with
    | some b =>
      have hv : v ≠ some x.lm := by intro hc; simp [hc] at hx
      rw [if_neg hv] at hx
      simp only [Option.some.injEq]
      constructor
      · rintro rfl
        exact ⟨[], x, ls, rfl, hv, hx, by simp⟩
      · rintro ⟨l1, l, l2, e, h1, h2, h3⟩
        cases l1 with
        | nil =>
          simp only [List.nil_append, List.cons.injEq] at e
          rw [← e.1, hx] at h2
          exact Option.some.inj h2
        | cons y l1 =>
          simp only [List.cons_append, List.cons.injEq] at e
          rcases h3 y (by simp) with h | h
          · rw [← e.1] at h; exact absurd h hv
          · rw [← e.1, hx] at h; cases h
    | none =>
      have hx' : v = some x.lm ∨ exportsAt x f = none := by
        by_cases h : v = some x.lm
        · exact Or.inl h
        · rw [if_neg h] at hx; exact Or.inr hx
      simp only [ih]
      constructor
      · rintro ⟨l1, l, l2, rfl, h1, h2, h3⟩
        refine ⟨x :: l1, l, l2, rfl, h1, h2, ?_⟩
        intro l' hl'
        rcases List.mem_cons.1 hl' with rfl | hl'
        · exact hx'
        · exact h3 l' hl'
      · rintro ⟨l1, l, l2, e, h1, h2, h3⟩
        cases l1 with
        | nil =>
          simp only [List.nil_append, List.cons.injEq] at e
          rcases hx' with h | h
          · rw [e.1] at h; exact absurd h h1
          · rw [e.1, h2] at h; cases h
        | cons y l1 =>
          simp only [List.cons_append, List.cons.injEq] at e
          exact ⟨l1, l, l2, e.2, h1, h2, fun l' hl' => h3 l' (List.mem_cons_of_mem _ hl')⟩

theorem firstDef_none (v : Option Addr) (ls : List Lib) (f : Name) :
    firstDef v ls f = none ↔ ∀ l ∈ ls, v = some l.lm ∨ exportsAt l f = none := by
  unfold firstDef
  rw [List.findSome?_eq_none_iff]
  constructor
  · intro h l hl
    have := h l hl
    by_cases e : v = some l.lm
    · exact Or.inl e
    · rw [if_neg e] at this; exact Or.inr this
  · intro h l hl
    rcases h l hl with h | h
    · simp [h]
    · simp [h]

end Gotcha.Spec
