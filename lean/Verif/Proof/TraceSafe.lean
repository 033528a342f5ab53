import Verif.Spec.Trace
import Verif.Spec.Calls
import Verif.Proof.TraceSteps
/-
Callers that run while wrappers are inserted.
-/
namespace Gotcha
open Spec

/-- Where a call on the stack `D` over the function `r` starts. -/
def hdW (r : Addr) : List Frame → Addr
  | [] => r
  | fr :: _ => fr.wrapper

/-- In state `σ` the stack `D` over `r` is linked up; `bid` gives the binding of each handle. -/
def Lk (P : Addr → Option HAddr) (bid : HAddr → BId) (r : Addr) (σ : State) : List Frame → Prop
  | [] => True
  | fr :: D => P fr.wrapper = some fr.handle ∧ σ.handles fr.handle = some (bid fr.handle) ∧
      rd σ (bid fr.handle) = some (hdW r D) ∧ Lk P bid r σ D

theorem Lk.drop {P bid r σ} (A : List Frame) {B : List Frame} (h : Lk P bid r σ (A ++ B)) :
    Lk P bid r σ B := by
  induction A with
  | nil => exact h
  | cons a A ih => exact ih h.2.2.2

theorem Lk.congr {P bid r} {σ σ' : State} {D : List Frame} (h : Lk P bid r σ D)
    (h1 : ∀ fr ∈ D, σ'.handles fr.handle = σ.handles fr.handle)
    (h2 : ∀ fr ∈ D, rd σ' (bid fr.handle) = rd σ (bid fr.handle)) : Lk P bid r σ' D := by
  induction D with
  | nil => trivial
  | cons fr D ih =>
    refine ⟨h.1, by rw [h1 fr (by simp)]; exact h.2.1, by rw [h2 fr (by simp)]; exact h.2.2.1, ?_⟩
    exact ih h.2.2.2 (fun g hg => h1 g (List.mem_cons_of_mem _ hg))
      (fun g hg => h2 g (List.mem_cons_of_mem _ hg))

theorem suffix_append {α : Type} {L A B : List α} (h : L <:+ A ++ B) :
    (∃ A', A' <:+ A ∧ L = A' ++ B) ∨ L <:+ B := by
  obtain ⟨X, hX⟩ := h
  rcases List.append_eq_append_iff.1 hX with ⟨C, h1, h2⟩ | ⟨C, h1, h2⟩
  · left; exact ⟨C, ⟨X, h1.symm⟩, h2⟩
  · right; exact ⟨C, h2.symm⟩

theorem suffix_mem {α : Type} {x : α} {L M : List α} (h : (x :: L) <:+ M) : x ∈ M :=
  h.subset (by simp)

theorem next_got {P : Addr → Option HAddr} {σ : State} {b ran a} (h : rd σ b = some a) :
    next P σ (.got b ran) = some (.jump a ran) := by
  unfold rd at h
  cases hx : σ.binds[b]? with
  | none => simp [hx] at h
  | some x =>
    simp only [hx, Option.bind_some] at h
    simp [next, hx, h]

/-- A caller on a stack that stays as it is. -/
theorem safe_same {P : Addr → Option HAddr} {Q : List Addr → Prop} {bid r} (hr : P r = none)
    (D : List Frame) : ∀ {tr : List State} {acc : List Addr}, (∀ σ ∈ tr, Lk P bid r σ D) →
      Q (acc ++ wrappers D ++ [r]) → Safe P Q tr (.jump (hdW r D) acc) := by
  induction D with
  | nil =>
    intro tr acc _ hQ
    have hn : ∀ σ, next P σ (.jump (hdW r []) acc) = some (.done (acc ++ [r])) := by
      intro σ; simp [next, hdW, hr]
    refine Safe.step (fun σ tr' _ => by rw [hn]; simp) ?_
    intro σ tr' pos' _ h
    rw [hn] at h
    cases h
    exact Safe.done (by simpa [wrappers] using hQ)
  | cons fr D ih =>
    intro tr acc hL hQ
    have hn : ∀ σ ∈ tr, next P σ (.jump (hdW r (fr :: D)) acc) =
        some (.got (bid fr.handle) (acc ++ [fr.wrapper])) := by
      intro σ hσ
      have := hL σ hσ
      simp [next, hdW, this.1, this.2.1]
    refine Safe.step (fun σ tr' h => by rw [hn σ (suffix_mem h)]; simp) ?_
    intro σ tr' pos' hs h
    rw [hn σ (suffix_mem hs)] at h
    cases h
    have hL1 : ∀ τ ∈ σ :: tr', Lk P bid r τ (fr :: D) := fun τ hτ => hL τ (hs.subset hτ)
    have hn2 : ∀ τ ∈ σ :: tr', next P τ (.got (bid fr.handle) (acc ++ [fr.wrapper])) =
        some (.jump (hdW r D) (acc ++ [fr.wrapper])) := fun τ hτ => next_got (hL1 τ hτ).2.2.1
    refine Safe.step (fun τ tr2 h => by rw [hn2 τ (suffix_mem h)]; simp) ?_
    intro τ tr2 pos2 hs2 h2
    rw [hn2 τ (suffix_mem hs2)] at h2
    cases h2
    refine ih (fun ρ hρ => (hL1 ρ (hs2.subset hρ)).2.2.2) ?_
    simpa [wrappers] using hQ

/-- A caller above the place where a frame `x` gets inserted. -/
theorem safe_insert {P : Addr → Option HAddr} {Q : List Addr → Prop} {bid r} (hr : P r = none)
    {x : Frame} {B : List Frame} {T1 : List State} (A : List Frame) :
    ∀ {a : Frame} {T0 : List State} {acc : List Addr},
      (∀ σ ∈ T0, Lk P bid r σ (a :: A ++ B)) → (∀ σ ∈ T1, Lk P bid r σ (a :: A ++ x :: B)) →
      Q (acc ++ wrappers (a :: A ++ B) ++ [r]) → Q (acc ++ wrappers (a :: A ++ x :: B) ++ [r]) →
      Safe P Q (T0 ++ T1) (.jump a.wrapper acc) := by
  induction A with
  | nil =>
    intro a T0 acc h0 h1 hQ0 hQ1
    have hn : ∀ σ ∈ T0 ++ T1, next P σ (.jump a.wrapper acc) =
        some (.got (bid a.handle) (acc ++ [a.wrapper])) := by
      intro σ hσ
      rcases List.mem_append.1 hσ with hσ | hσ
      · have := h0 σ hσ
        simp [next, this.1, this.2.1]
      · have := h1 σ hσ
        simp [next, this.1, this.2.1]
    refine Safe.step (fun σ tr' h => by rw [hn σ (suffix_mem h)]; simp) ?_
    intro σ tr' pos' hs h
    rw [hn σ (suffix_mem hs)] at h
    cases h
    have hn0 : ∀ τ ∈ T0, next P τ (.got (bid a.handle) (acc ++ [a.wrapper])) =
        some (.jump (hdW r B) (acc ++ [a.wrapper])) := fun τ hτ => next_got (h0 τ hτ).2.2.1
    have hn1 : ∀ τ ∈ T1, next P τ (.got (bid a.handle) (acc ++ [a.wrapper])) =
        some (.jump (hdW r (x :: B)) (acc ++ [a.wrapper])) := fun τ hτ => next_got (h1 τ hτ).2.2.1
    refine Safe.step ?_ ?_
    · intro τ tr2 h
      rcases List.mem_append.1 (hs.subset (suffix_mem h)) with hτ | hτ
      · rw [hn0 τ hτ]; simp
      · rw [hn1 τ hτ]; simp
    · intro τ tr2 pos2 hs2 h2
      rcases suffix_append (hs2.trans hs) with ⟨T0', hT, e⟩ | hT
      · cases T0' with
        | nil =>
          have hT1 : ∀ ρ ∈ τ :: tr2, ρ ∈ T1 := fun ρ hρ => by rw [e] at hρ; exact hρ
          rw [hn1 τ (hT1 τ (by simp))] at h2
          cases h2
          exact safe_same hr (x :: B) (fun ρ hρ => (h1 ρ (hT1 ρ hρ)).2.2.2)
            (by simpa [wrappers] using hQ1)
        | cons t0 T0' =>
          simp only [List.cons_append, List.cons.injEq] at e
          obtain ⟨rfl, rfl⟩ := e
          rw [hn0 τ (suffix_mem hT)] at h2
          cases h2
          refine safe_same (bid := bid) hr B ?_ (by simpa [wrappers] using hQ0)
          intro ρ hρ
          rw [← List.cons_append] at hρ
          rcases List.mem_append.1 hρ with hρ | hρ
          · exact (h0 ρ (hT.subset hρ)).2.2.2
          · exact (h1 ρ hρ).2.2.2.2.2.2
      · rw [hn1 τ (suffix_mem hT)] at h2
        cases h2
        exact safe_same hr (x :: B) (fun ρ hρ => (h1 ρ (hT.subset hρ)).2.2.2)
          (by simpa [wrappers] using hQ1)
  | cons a' A ih =>
    intro a T0 acc h0 h1 hQ0 hQ1
    have hn : ∀ σ ∈ T0 ++ T1, next P σ (.jump a.wrapper acc) =
        some (.got (bid a.handle) (acc ++ [a.wrapper])) := by
      intro σ hσ
      rcases List.mem_append.1 hσ with hσ | hσ
      · have := h0 σ hσ
        simp [next, this.1, this.2.1]
      · have := h1 σ hσ
        simp [next, this.1, this.2.1]
    refine Safe.step (fun σ tr' h => by rw [hn σ (suffix_mem h)]; simp) ?_
    intro σ tr' pos' hs h
    rw [hn σ (suffix_mem hs)] at h
    cases h
    have hn2 : ∀ τ ∈ T0 ++ T1, next P τ (.got (bid a.handle) (acc ++ [a.wrapper])) =
        some (.jump a'.wrapper (acc ++ [a.wrapper])) := by
      intro τ hτ
      rcases List.mem_append.1 hτ with hτ | hτ
      · exact next_got (h0 τ hτ).2.2.1
      · exact next_got (h1 τ hτ).2.2.1
    refine Safe.step (fun τ tr2 h => by rw [hn2 τ (hs.subset (suffix_mem h))]; simp) ?_
    intro τ tr2 pos2 hs2 h2
    rw [hn2 τ (hs.subset (suffix_mem hs2))] at h2
    cases h2
    rcases suffix_append (hs2.trans hs) with ⟨T0', hT, e⟩ | hT
    · rw [e]
      refine ih (fun ρ hρ => (h0 ρ (hT.subset hρ)).2.2.2) (fun ρ hρ => (h1 ρ hρ).2.2.2) ?_ ?_
      · simpa [wrappers] using hQ0
      · simpa [wrappers] using hQ1
    · refine safe_same hr (a' :: A ++ x :: B) (fun ρ hρ => (h1 ρ (hT.subset hρ)).2.2.2) ?_
      simpa [wrappers] using hQ1

/-- What a caller of an unwrapped or wrapped function runs: the word `v` of its slot is the function
itself, or the outermost wrapper. -/
def pathOf (v r : Addr) : List Frame → List Addr
  | [] => [v]
  | D => wrappers D ++ [r]

/-- `D1` is `D0` with at most one frame inserted. -/
def Ins (D0 D1 : List Frame) : Prop := D1 = D0 ∨ ∃ A x B, D0 = A ++ B ∧ D1 = A ++ x :: B

theorem safe_slot {P : Addr → Option HAddr} {bid r} {a v : Addr} {T0 T1 : List State}
    {D0 D1 : List Frame} (hI : Ins D0 D1) (hr : D1 ≠ [] → P r = none)
    (h0 : ∀ σ ∈ T0, Lk P bid r σ D0) (h1 : ∀ σ ∈ T1, Lk P bid r σ D1)
    (hm0 : ∀ σ ∈ T0, σ.mem a = v) (hm1 : ∀ σ ∈ T1, σ.mem a = v ∨ (D1 ≠ [] ∧ σ.mem a = hdW r D1))
    (hv0 : D0 = [] → P v = none) (hv1 : D0 ≠ [] → v = hdW r D0) :
    Safe P (fun path => path = pathOf v r D0 ∨ path = pathOf v r D1) (T0 ++ T1) (.slot a) := by
  refine Safe.step (fun σ tr' _ => by simp [next]) ?_
  intro σ tr' pos' hs h
  simp only [next, Option.some.injEq] at h
  subst h
  -- a caller that has read the old word
  have hold : σ.mem a = v → Safe P (fun path => path = pathOf v r D0 ∨ path = pathOf v r D1)
      (σ :: tr') (.jump (σ.mem a) []) := by
    intro e
    rw [e]
    cases D0 with
    | nil =>
      have hn : ∀ τ, next P τ (.jump v []) = some (.done [v]) := by
        intro τ; simp [next, hv0 rfl]
      refine Safe.step (fun τ _ _ => by rw [hn]; simp) ?_
      intro τ tr2 pos2 _ h2
      rw [hn] at h2
      cases h2
      exact Safe.done (Or.inl rfl)
    | cons d D =>
      have hD1 : D1 ≠ [] := by
        rcases hI with rfl | ⟨A, x, B, e1, rfl⟩
        · simp
        · simp
      replace hr := hr hD1
      rw [hv1 (by simp)]
      rcases hI with rfl | ⟨A, x, B, e1, rfl⟩
      · refine safe_same (bid := bid) hr (d :: D) ?_ (Or.inl (by simp [pathOf]))
        intro τ hτ
        rcases List.mem_append.1 (hs.subset hτ) with hτ | hτ
        · exact h0 τ hτ
        · exact h1 τ hτ
      · cases A with
        | nil =>
          simp only [List.nil_append] at e1 h1 ⊢
          subst e1
          refine safe_same (bid := bid) hr (d :: D) ?_ (Or.inl (by simp [pathOf]))
          intro τ hτ
          rcases List.mem_append.1 (hs.subset hτ) with hτ | hτ
          · exact h0 τ hτ
          · exact (h1 τ hτ).2.2.2
        | cons d' A =>
          simp only [List.cons_append, List.cons.injEq] at e1
          obtain ⟨rfl, rfl⟩ := e1
          rcases suffix_append hs with ⟨T0', hT, e⟩ | hT
          · rw [e]
            exact safe_insert hr A (fun τ hτ => h0 τ (hT.subset hτ)) h1
              (Or.inl (by simp [pathOf])) (Or.inr (by simp [pathOf]))
          · exact safe_same hr (d :: A ++ x :: B) (fun τ hτ => h1 τ (hT.subset hτ))
              (Or.inr (by simp [pathOf]))
  rcases suffix_append hs with ⟨T0', hT, e⟩ | hT
  · cases T0' with
    | nil =>
      have hT1 : ∀ τ ∈ σ :: tr', τ ∈ T1 := fun τ hτ => by rw [e] at hτ; exact hτ
      rcases hm1 σ (hT1 σ (by simp)) with e1 | ⟨e1, e2⟩
      · exact hold e1
      · rw [e2]
        refine safe_same (hr e1) D1 (fun τ hτ => h1 τ (hT1 τ hτ)) (Or.inr ?_)
        cases D1 with
        | nil => exact absurd rfl e1
        | cons d D => simp [pathOf]
    | cons t0 T0' =>
      simp only [List.cons_append, List.cons.injEq] at e
      obtain ⟨rfl, rfl⟩ := e
      exact hold (hm0 σ (suffix_mem hT))
  · rcases hm1 σ (suffix_mem hT) with e1 | ⟨e1, e2⟩
    · exact hold e1
    · rw [e2]
      refine safe_same (hr e1) D1 (fun τ hτ => h1 τ (hT.subset hτ)) (Or.inr ?_)
      cases D1 with
      | nil => exact absurd rfl e1
      | cons d D => simp [pathOf]

/-- A caller that does the rest of its reads in one state. -/
theorem safe_finish {P : Addr → Option HAddr} {Q : List Addr → Prop} {σ : State} {tr' : List State}
    {tr : List State} {pos : Pos} (h : Safe P Q tr pos) : (σ :: tr') <:+ tr →
    match pos with
    | .slot a => ∃ path, Calls P σ (σ.mem a) path ∧ Q path
    | .jump a ran => ∃ path, Calls P σ a path ∧ Q (ran ++ path)
    | .got b ran => ∃ x a', σ.binds[b]? = some x ∧ x.wrappee = some a' ∧
        ∃ path, Calls P σ a' path ∧ Q (ran ++ path)
    | .done ran => Q ran := by
  induction h with
  | done h => intro _; exact h
  | @step tr pos h1 _ ih =>
    intro hs
    have hn := h1 σ tr' hs
    have hi := fun pos' hp => ih σ tr' pos' hs hp (List.suffix_refl _)
    cases pos with
    | slot a =>
      obtain ⟨path, g1, g2⟩ := hi (.jump (σ.mem a) []) rfl
      exact ⟨path, g1, g2⟩
    | jump a ran =>
      cases hp : P a with
      | none =>
        have := hi (.done (ran ++ [a])) (by simp [next, hp])
        exact ⟨[a], .stop hp, this⟩
      | some hd =>
        cases hh : σ.handles hd with
        | none => simp [next, hp, hh] at hn
        | some b =>
          obtain ⟨x, a', g1, g2, path, g3, g4⟩ :=
            hi (.got b (ran ++ [a])) (by simp [next, hp, hh])
          refine ⟨a :: path, .cont hp ?_ g3, by simpa using g4⟩
          simp [State.getWrappee, hh, State.bind, g1, g2]
    | got b ran =>
      cases hx : σ.binds[b]? with
      | none => simp [next, hx] at hn
      | some x =>
        cases hw : x.wrappee with
        | none => simp [next, hx, hw] at hn
        | some a' =>
          obtain ⟨path, g1, g2⟩ := hi (.jump a' ran) (by simp [next, hx, hw])
          exact ⟨x, a', hx, hw, path, g1, g2⟩
    | done ran => exact hi (.done ran) rfl

end Gotcha
