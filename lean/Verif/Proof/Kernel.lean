import Verif.Model.Kernel
import Verif.Props.Auxv
import Verif.Props.Compose
/-
The answers of the kernel's files as an environment of `Model/Core`.
-/
namespace Gotcha.Auxv
open Gotcha Spec Spec.Auxv

/-- The environment gives the page size and the vdso that a first question gets. -/
structure Files.Closes (K : Files) (env : Env) : Prop where
  page : ∃ pgs aux, getpagesize 0 AuxState.init K.auxv = .ok (pgs, aux, env.page)
  vdso : ∀ libs, ∃ st b, isVdso VdsoState.init (K.outside libs) (some 0) = .ok (st, b) ∧
    env.vdsoOf libs = st.vdso

/-- The auxiliary vector has not been read, or has been read. -/
def AuxRel (K : Files) (a : AuxState) : Prop :=
  a = AuxState.init ∨ ∃ r, parseAuxv AuxState.init K.auxv = .ok (a, r)

theorem AuxRel.parse {K : Files} {a : AuxState} (h : AuxRel K a) :
    parseAuxv a K.auxv = parseAuxv AuxState.init K.auxv := by
  rcases h with rfl | ⟨r, h⟩
  · rfl
  · rw [h, ((Props.C55_once h).2 K.auxv).1]

theorem AuxRel.of {K : Files} {a a' : AuxState} {r : Int} (h : AuxRel K a)
    (hp : parseAuxv a K.auxv = .ok (a', r)) : AuxRel K a' := by
  rw [h.parse] at hp
  exact Or.inr ⟨r, hp⟩

/-- Static variables of a process in which the vdso asked for so far is `v`. -/
structure Rel (K : Files) (env : Env) (st : Static) (v : Option (Option Addr)) : Prop where
  page : st.pagesz = 0 ∨ st.pagesz = env.page
  aux : AuxRel K st.v.aux
  fresh : v = none → st.v.checked = false ∧ st.v.vdso = none
  done : ∀ x, v = some x → st.v.checked = true ∧ st.v.vdso = x

theorem rel_init (K : Files) (env : Env) : Rel K env Static.init none :=
  ⟨Or.inl rfl, Or.inl rfl, fun _ => ⟨rfl, rfl⟩, fun _ h => by cases h⟩

theorem getpagesize_ne {K : Files} {env : Env} (h : K.Closes env) : env.page ≠ 0 := by
  obtain ⟨pgs, aux, h⟩ := h.page
  unfold getpagesize at h
  rw [if_neg (by simp)] at h
  split at h
  · cases h
  · simp only [Except.ok.injEq, Prod.mk.injEq] at h
    rw [← h.2.2]
    split <;> omega

theorem ask_page {K : Files} {env : Env} (hK : K.Closes env) {st : Static} {v : Option (Option Addr)}
    (h : Rel K env st v) : ∃ st', ask K st .page = .ok (st', .page env.page) ∧ Rel K env st' v := by
  have hne := getpagesize_ne hK
  rcases h.page with h0 | h0
  · obtain ⟨pgs, aux, hp⟩ := hK.page
    have e : ∃ aux', getpagesize st.pagesz st.v.aux K.auxv = .ok (env.page, aux', env.page) ∧
        AuxRel K aux' := by
      unfold getpagesize auxvPagesize at hp ⊢
      rw [h0]
      rw [if_neg (by simp)] at hp ⊢
      rw [h.aux.parse]
      cases hq : parseAuxv AuxState.init K.auxv with
      | error e => rw [hq] at hp; cases hp
      | ok x =>
        obtain ⟨a, r⟩ := x
        rw [hq] at hp
        simp only [Except.ok.injEq, Prod.mk.injEq] at hp ⊢
        exact ⟨a, ⟨hp.2.2, rfl, hp.2.2⟩, Or.inr ⟨r, hq⟩⟩
    obtain ⟨aux', e, ha⟩ := e
    refine ⟨⟨env.page, { st.v with aux := aux' }⟩, ?_, ⟨Or.inr rfl, ha, h.fresh, h.done⟩⟩
    unfold ask
    simp only [e]
  · have e : getpagesize st.pagesz st.v.aux K.auxv = .ok (env.page, st.v.aux, env.page) := by
      unfold getpagesize
      rw [h0, if_pos hne]
    refine ⟨⟨env.page, st.v⟩, ?_, ⟨Or.inr rfl, h.aux, h.fresh, h.done⟩⟩
    unfold ask
    simp only [e]

theorem isVdso_any {o : Outside} {a a0 : AuxState} {st : VdsoState} {b : Bool} {x : Addr}
    (hp : parseAuxv a o.auxv = parseAuxv a0 o.auxv)
    (h : isVdso ⟨false, none, a0⟩ o (some x) = .ok (st, b)) (y : Addr) :
    ∃ aux, isVdso ⟨false, none, a⟩ o (some y) = .ok (⟨true, st.vdso, aux⟩, decide (some y = st.vdso)) ∧
      (aux = a ∨ ∃ r, parseAuxv a o.auxv = .ok (aux, r)) := by
  unfold isVdso at h ⊢
  simp only [Bool.false_eq_true, if_false] at h ⊢
  cases hv : vdsoFromAliases o.maps with
  | some r =>
    rw [hv] at h
    simp only [Except.ok.injEq, Prod.mk.injEq] at h ⊢
    obtain ⟨rfl, -⟩ := h
    exact ⟨a, ⟨rfl, by simp⟩, Or.inl rfl⟩
  | none =>
    rw [hv] at h
    simp only at h ⊢
    have e : vdsoFromAuxv a o.auxv o.image o.maps = vdsoFromAuxv a0 o.auxv o.image o.maps := by
      unfold vdsoFromAuxv
      rw [hp]
    rw [e]
    cases hx : vdsoFromAuxv a0 o.auxv o.image o.maps with
    | error e => rw [hx] at h; cases h
    | ok z =>
      obtain ⟨aux, m⟩ := z
      have hpar : ∃ r, parseAuxv a o.auxv = .ok (aux, r) := by
        unfold vdsoFromAuxv at hx
        rw [hp]
        cases hq : parseAuxv a0 o.auxv with
        | error e => rw [hq] at hx; cases hx
        | ok w =>
          obtain ⟨w1, w2⟩ := w
          rw [hq] at hx
          simp only at hx
          split at hx <;>
            (simp only [Except.ok.injEq, Prod.mk.injEq] at hx; obtain ⟨rfl, -⟩ := hx; exact ⟨_, rfl⟩)
      rw [hx] at h
      cases m with
      | some r =>
        simp only [Except.ok.injEq, Prod.mk.injEq] at h ⊢
        obtain ⟨rfl, -⟩ := h
        exact ⟨aux, ⟨rfl, by simp⟩, Or.inr hpar⟩
      | none =>
        simp only at h ⊢
        cases hm : vdsoFromMaps o.mapsFile o.maps with
        | error e => rw [hm] at h; cases h
        | ok m =>
          rw [hm] at h
          cases m with
          | some r =>
            simp only [Except.ok.injEq, Prod.mk.injEq] at h ⊢
            obtain ⟨rfl, -⟩ := h
            exact ⟨aux, ⟨rfl, by simp⟩, Or.inr hpar⟩
          | none =>
            simp only [Except.ok.injEq, Prod.mk.injEq] at h ⊢
            obtain ⟨rfl, -⟩ := h
            exact ⟨aux, ⟨rfl, by simp⟩, Or.inr hpar⟩

theorem ask_first {K : Files} {env : Env} (hK : K.Closes env) {st : Static} (libs : List Lib) (lm : Addr)
    (h : Rel K env st none) : ∃ st', ask K st (.vdso libs lm) =
      .ok (st', .vdso (decide (env.vdsoOf libs = some lm))) ∧ Rel K env st' (some (env.vdsoOf libs)) := by
  obtain ⟨h1, h2⟩ := h.fresh rfl
  obtain ⟨st0, b, e, ev⟩ := hK.vdso libs
  obtain ⟨aux, e', ha⟩ := isVdso_any (o := K.outside libs) (a := st.v.aux) h.aux.parse e lm
  have hst : st.v = ⟨false, none, st.v.aux⟩ := by
    cases hh : st.v with
    | mk c d a => rw [hh] at h1 h2; simp only at h1 h2; rw [h1, h2]
  refine ⟨⟨st.pagesz, ⟨true, st0.vdso, aux⟩⟩, ?_, ?_⟩
  · unfold ask
    simp only
    rw [hst, e']
    simp only [ev, eq_comm]
  · refine ⟨h.page, ?_, by simp, ?_⟩
    · rcases ha with rfl | ⟨r, hr⟩
      · exact h.aux
      · exact h.aux.of hr
    · intro x hx
      cases hx
      exact ⟨rfl, ev.symm⟩

theorem ask_later {K : Files} {env : Env} {st : Static} {v : Option Addr} (libs : List Lib) (lm : Addr)
    (h : Rel K env st (some v)) : ask K st (.vdso libs lm) = .ok (st, .vdso (decide (v = some lm))) := by
  obtain ⟨h1, h2⟩ := h.done v rfl
  unfold ask isVdso
  simp only [h1, h2, if_true]
  simp only [eq_comm]

/-- `is_vdso` answers what `State.isVdso` answers. -/
theorem ask_vdso {K : Files} {env : Env} (hK : K.Closes env) {st : Static} {s : State} (l : Lib)
    (h : Rel K env st s.vdso) : ∃ st', ask K st (.vdso s.linkMap l.lm) =
      .ok (st', .vdso (s.isVdso env l).2) ∧ Rel K env st' (s.isVdso env l).1.vdso := by
  cases hs : s.vdso with
  | some v =>
    rw [hs] at h
    refine ⟨st, ?_, ?_⟩
    · rw [ask_later _ _ h]
      simp only [State.isVdso, hs]
    · simp only [State.isVdso, hs]
      exact h
  | none =>
    rw [hs] at h
    obtain ⟨st', h1, h2⟩ := ask_first hK s.linkMap l.lm h
    refine ⟨st', ?_, ?_⟩
    · rw [h1]
      simp only [State.isVdso, hs]
    · simp only [State.isVdso, hs]
      exact h2

end Gotcha.Auxv

namespace Gotcha
open Spec

theorem vdsoAfter_first {env : Env} {op : Op} (hop : isApi op = true) (post : List Op) :
    ∀ (pre : List Op) (libs : List Lib), (∀ o ∈ pre, isApi o = false) →
      vdsoAfter env libs (pre ++ op :: post) = env.vdsoOf (libsAfter libs pre) := by
  intro pre
  induction pre with
  | nil => intro libs _; simp [vdsoAfter, hop, libsAfter]
  | cons o pre ih =>
    intro libs h
    rw [List.cons_append, vdsoAfter, if_neg (by simp [h o (by simp)]), ih _ (fun x hx => h x (by simp [hx]))]
    rfl

end Gotcha
