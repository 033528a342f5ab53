import Verif.Proof.TraceDl
/-
A caller that overlaps any number of operations.
-/
namespace Gotcha
open Spec

/-- What the functions run by a caller satisfy: the word `v0` its slot held, when nothing was registered,
or a stack between `S0` and `Dn` over `r`. -/
def Between (P : Addr → Option HAddr) (r v0 : Addr) (S0 Dn : List Frame) (path : List Addr) : Prop :=
  (S0 = [] ∧ P v0 = none ∧ path = [v0]) ∨
    ∃ E, E ≠ [] ∧ S0.Sublist E ∧ E.Sublist Dn ∧ path = wrappers E ++ [r]

/-- The word in the slot: still the first one, or the start of the lower part of the stack `D`. -/
def SlotOk (r v0 : Addr) (S0 D : List Frame) (w : Addr) : Prop :=
  (S0 = [] ∧ w = v0) ∨ ∃ Y, Y <:+ D ∧ Y ≠ [] ∧ S0.Sublist Y ∧ w = hdW r Y

/-- States in which the stack grows from `D` to at most `Dn`. -/
inductive Evo (P : Addr → Option HAddr) (r a v0 : Addr) (S0 Dn : List Frame) :
    (HAddr → BId) → List Frame → List State → Prop
  | nil {bid D} : D.Sublist Dn → Evo P r a v0 S0 Dn bid D []
  | cons {bid bid' D D' σ tr} : D.Sublist D' → (∀ fr ∈ D, bid' fr.handle = bid fr.handle) →
      Lk P bid' r σ D' → SlotOk r v0 S0 D' (σ.mem a) → Evo P r a v0 S0 Dn bid' D' tr →
      Evo P r a v0 S0 Dn bid D (σ :: tr)

section
variable {P : Addr → Option HAddr} {r a v0 : Addr} {S0 Dn : List Frame}

theorem Evo.sub {bid D tr} (h : Evo P r a v0 S0 Dn bid D tr) : D.Sublist Dn := by
  induction h with
  | nil h => exact h
  | cons h _ _ _ _ ih => exact h.trans ih

theorem Evo.suffix {bid D tr} (h : Evo P r a v0 S0 Dn bid D tr) : ∀ {σ tr'}, (σ :: tr') <:+ tr →
    ∃ bid' D', D.Sublist D' ∧ (∀ fr ∈ D, bid' fr.handle = bid fr.handle) ∧
      Lk P bid' r σ D' ∧ SlotOk r v0 S0 D' (σ.mem a) ∧ Evo P r a v0 S0 Dn bid' D' tr' := by
  induction h with
  | nil h => intro σ tr' hs; simp at hs
  | @cons bid bid' D D' τ tr h1 h2 h3 h4 h5 ih =>
    intro σ tr' hs
    rcases List.suffix_cons_iff.1 hs with hs | hs
    · cases hs
      exact ⟨bid', D', h1, h2, h3, h4, h5⟩
    · obtain ⟨bid'', D'', g1, g2, g3, g4, g5⟩ := ih hs
      exact ⟨bid'', D'', h1.trans g1, fun fr hfr => (g2 fr (h1.subset hfr)).trans (h2 fr hfr), g3, g4, g5⟩

/-- Where the caller can be when the stack is `D`: it has run the frames `acc`, all in the part `X` it has
left behind. -/
def OkPos (P : Addr → Option HAddr) (r a v0 : Addr) (S0 : List Frame) (bid : HAddr → BId)
    (D : List Frame) : Pos → Prop
  | .slot a' => a' = a
  | .jump c ran => (S0 = [] ∧ c = v0 ∧ ran = []) ∨ ∃ X Y acc, D = X ++ Y ∧ acc ++ Y ≠ [] ∧
      acc.Sublist X ∧ S0.Sublist (acc ++ Y) ∧ c = hdW r Y ∧ ran = wrappers acc
  | .got b ran => ∃ X fr Y acc, D = X ++ fr :: Y ∧ acc.Sublist X ∧ S0.Sublist (acc ++ fr :: Y) ∧
      b = bid fr.handle ∧ ran = wrappers (acc ++ [fr])
  | .done ran => (S0 = [] ∧ P v0 = none ∧ ran = [v0]) ∨ ∃ E, E ≠ [] ∧ S0.Sublist E ∧
      E.Sublist D ∧ ran = wrappers E ++ [r]

/-- A part of a list that starts with a given element, in a longer list. -/
theorem sublist_part {α : Type} {X Y D' : List α} (h : (X ++ Y).Sublist D') :
    ∃ X' Y', D' = X' ++ Y' ∧ X.Sublist X' ∧ Y.Sublist Y' ∧ (Y.head? = Y'.head?) := by
  obtain ⟨X', Y', rfl, h1, h2⟩ := List.append_sublist_iff.1 h
  cases Y with
  | nil => exact ⟨X' ++ Y', [], by simp, h1.trans (List.sublist_append_left _ _), by simp, rfl⟩
  | cons y Y =>
    obtain ⟨Z, W, rfl, h3, h4⟩ := List.cons_sublist_iff.1 h2
    obtain ⟨U, V, rfl⟩ := List.append_of_mem h3
    refine ⟨X' ++ U, y :: (V ++ W), by simp, h1.trans (List.sublist_append_left _ _), ?_, rfl⟩
    exact (h4.trans (List.sublist_append_right _ _)).cons_cons _

theorem hdW_head {Y Y' : List Frame} (h : Y.head? = Y'.head?) : hdW r Y' = hdW r Y := by
  cases Y <;> cases Y' <;> simp at h <;> simp [hdW, h]

theorem OkPos.mono {bid bid' : HAddr → BId} {D D' : List Frame} {pos : Pos}
    (h : OkPos P r a v0 S0 bid D pos) (hD : D.Sublist D')
    (hb : ∀ fr ∈ D, bid' fr.handle = bid fr.handle) : OkPos P r a v0 S0 bid' D' pos := by
  cases pos with
  | slot a' => exact h
  | jump c ran =>
    rcases h with h | ⟨X, Y, acc, rfl, h0, h1, h2, h3, h4⟩
    · exact Or.inl h
    · obtain ⟨X', Y', rfl, g1, g2, g3⟩ := sublist_part hD
      refine Or.inr ⟨X', Y', acc, rfl, fun hc => h0 ?_, h1.trans g1, h2.trans ((List.Sublist.refl _).append g2),
        by rw [hdW_head g3]; exact h3, h4⟩
      rw [List.append_eq_nil_iff] at hc ⊢
      refine ⟨hc.1, ?_⟩
      rw [hc.2] at g2
      exact List.sublist_nil.1 g2
  | got b ran =>
    obtain ⟨X, fr, Y, acc, rfl, h1, h2, h3, h4⟩ := h
    obtain ⟨X', Y', rfl, g1, g2, g3⟩ := sublist_part hD
    cases Y' with
    | nil => simp at g3
    | cons fr' Y' =>
      simp only [List.head?_cons, Option.some.injEq] at g3
      subst g3
      exact ⟨X', fr, Y', acc, rfl, h1.trans g1, h2.trans ((List.Sublist.refl _).append g2),
        by rw [hb fr (by simp)]; exact h3, h4⟩
  | done ran =>
    rcases h with h | ⟨E, h0, h1, h2, h3⟩
    · exact Or.inl h
    · exact Or.inr ⟨E, h0, h1, h2.trans hD, h3⟩

/-- How many reads a caller still does at most. -/
def left (N : Nat) : Pos → Nat
  | .slot _ => 2 * N + 4
  | .jump _ ran => 2 * (N - ran.length) + 2
  | .got _ ran => 2 * (N - ran.length) + 3
  | .done _ => 0

theorem OkPos.next (hr : P r = none) (hv : S0 = [] → P v0 = none) {bid : HAddr → BId}
    {D : List Frame} {σ : State} (hL : Lk P bid r σ D) (hm : SlotOk r v0 S0 D (σ.mem a)) {pos : Pos}
    (h : OkPos P r a v0 S0 bid D pos) (hN : D.length ≤ Dn.length) (hd : ∀ ran, pos ≠ .done ran) :
    ∃ pos', next P σ pos = some pos' ∧ OkPos P r a v0 S0 bid D pos' ∧
      left Dn.length pos' < left Dn.length pos := by
  cases pos with
  | slot a' =>
    subst h
    refine ⟨.jump (σ.mem a') [], rfl, ?_, by simp [left]⟩
    rcases hm with hm | ⟨Y, ⟨X, rfl⟩, h1, h2, h3⟩
    · exact Or.inl ⟨hm.1, hm.2, rfl⟩
    · exact Or.inr ⟨X, Y, [], rfl, by simpa using h1, by simp, by simpa using h2, h3, rfl⟩
  | jump c ran =>
    rcases h with ⟨h1, rfl, rfl⟩ | ⟨X, Y, acc, rfl, h0, h1, h2, rfl, rfl⟩
    · exact ⟨.done [c], by simp [Spec.next, hv h1], Or.inl ⟨h1, hv h1, rfl⟩, by simp [left]⟩
    · cases Y with
      | nil =>
        refine ⟨.done (wrappers acc ++ [r]), by simp [Spec.next, hdW, hr], Or.inr ⟨acc, ?_, ?_, ?_, rfl⟩,
          by simp [left]⟩
        · simpa using h0
        · simpa using h2
        · simpa using h1
      | cons fr Y =>
        have hY := hL.drop X
        refine ⟨.got (bid fr.handle) (wrappers acc ++ [fr.wrapper]), ?_, ⟨X, fr, Y, acc, rfl, h1, h2, rfl,
          by simp [wrappers]⟩, ?_⟩
        · simp [Spec.next, hdW, hY.1, hY.2.1]
        · have := h1.length_le
          simp only [List.length_append, List.length_cons] at hN
          simp only [left, List.length_append, wrappers, List.length_map, List.length_cons,
            List.length_nil]
          omega
  | got b ran =>
    obtain ⟨X, fr, Y, acc, rfl, h1, h2, rfl, rfl⟩ := h
    have hY := hL.drop X
    refine ⟨.jump (hdW r Y) (wrappers (acc ++ [fr])), next_got hY.2.2.1,
      Or.inr ⟨X ++ [fr], Y, acc ++ [fr], by simp, by simp, h1.append (List.Sublist.refl _), by simpa using h2,
        rfl, rfl⟩, ?_⟩
    simp only [left]
    omega
  | done ran => exact absurd rfl (hd ran)

theorem evo_safe (hr : P r = none) (hv : S0 = [] → P v0 = none) : ∀ (n : Nat) {bid : HAddr → BId}
    {D : List Frame} {tr : List State} {pos : Pos}, left Dn.length pos ≤ n →
    OkPos P r a v0 S0 bid D pos → Evo P r a v0 S0 Dn bid D tr →
    Safe P (Between P r v0 S0 Dn) tr pos := by
  intro n
  induction n with
  | zero =>
    intro bid D tr pos hn hp he
    cases pos with
    | done ran =>
      refine .done ?_
      rcases hp with hp | ⟨E, h0, h1, h2, h3⟩
      · exact Or.inl hp
      · exact Or.inr ⟨E, h0, h1, h2.trans he.sub, h3⟩
    | slot a' => simp [left] at hn
    | jump c ran => simp [left] at hn
    | got b ran => simp [left] at hn
  | succ n ih =>
    intro bid D tr pos hn hp he
    by_cases hd : ∃ ran, pos = .done ran
    · obtain ⟨ran, rfl⟩ := hd
      refine .done ?_
      rcases hp with hp | ⟨E, h0, h1, h2, h3⟩
      · exact Or.inl hp
      · exact Or.inr ⟨E, h0, h1, h2.trans he.sub, h3⟩
    · have hd' : ∀ ran, pos ≠ .done ran := fun ran h => hd ⟨ran, h⟩
      refine .step ?_ ?_
      · intro σ tr' hs
        obtain ⟨bid', D', g1, g2, g3, g4, g5⟩ := he.suffix hs
        obtain ⟨pos', e1, -, -⟩ := OkPos.next (Dn := Dn) hr hv g3 g4 (hp.mono g1 g2) g5.sub.length_le hd'
        rw [e1]; simp
      · intro σ tr' pos' hs hnx
        obtain ⟨bid', D', g1, g2, g3, g4, g5⟩ := he.suffix hs
        obtain ⟨pos2, e1, e2, e3⟩ := OkPos.next (Dn := Dn) hr hv g3 g4 (hp.mono g1 g2) g5.sub.length_le hd'
        rw [hnx] at e1
        cases e1
        exact ih (by omega) e2 (.cons (List.Sublist.refl _) (fun _ _ => rfl) g3 g4 g5)

theorem Ins.sub {D0 D1 : List Frame} (h : Ins D0 D1) : D0.Sublist D1 := by
  rcases h with rfl | ⟨A, x, B, rfl, rfl⟩
  · exact List.Sublist.refl _
  · exact (List.Sublist.refl _).append (List.sublist_cons_self _ _)

/-- One operation. -/
theorem evo_phases {bid bid0 : HAddr → BId} {v : Addr} {D0 D1 : List Frame} {T0 T1 rest : List State}
    (h : Phases P bid r a v D0 D1 T0 T1) (hb : ∀ fr ∈ D0, bid fr.handle = bid0 fr.handle)
    (hv : (D0 = [] ∧ S0 = [] ∧ v = v0) ∨ (D0 ≠ [] ∧ v = hdW r D0 ∧ S0.Sublist D0))
    (hrest : Evo P r a v0 S0 Dn bid D1 rest) :
    Evo P r a v0 S0 Dn bid0 D0 (T0 ++ T1 ++ rest) := by
  have hS : S0.Sublist D1 := by
    rcases hv with ⟨-, h1, -⟩ | ⟨-, -, h1⟩
    · rw [h1]; simp
    · exact h1.trans h.ins.sub
  have h1 : ∀ T : List State, (∀ σ ∈ T, σ ∈ T1) → Evo P r a v0 S0 Dn bid D1 (T ++ rest) := by
    intro T
    induction T with
    | nil => intro _; exact hrest
    | cons σ T ih =>
      intro hT
      refine .cons (List.Sublist.refl _) (fun _ _ => rfl) (h.lk1 σ (hT σ (by simp))) ?_
        (ih fun τ hτ => hT τ (by simp [hτ]))
      rcases h.mem1 σ (hT σ (by simp)) with e | ⟨hne, e⟩
      · rw [e]
        rcases hv with ⟨-, g1, g2⟩ | ⟨g0, g1, g2⟩
        · exact Or.inl ⟨g1, g2⟩
        · right
          rcases h.ins with rfl | ⟨A, x, B, rfl, rfl⟩
          · exact ⟨_, List.suffix_refl _, g0, g2, g1⟩
          · cases A with
            | nil => exact ⟨B, ⟨[x], rfl⟩, g0, g2, g1⟩
            | cons d A =>
              refine ⟨_, List.suffix_refl _, (by simp), hS, ?_⟩
              rw [g1]; rfl
      · exact Or.inr ⟨D1, List.suffix_refl _, hne, hS, e⟩
  have h0 : ∀ T : List State, (∀ σ ∈ T, σ ∈ T0) → Evo P r a v0 S0 Dn bid D0 (T ++ (T1 ++ rest)) := by
    intro T
    induction T with
    | nil =>
      intro _
      have := h1 T1 (fun _ h => h)
      have hs := h.ins.sub
      show Evo P r a v0 S0 Dn bid D0 (T1 ++ rest)
      generalize T1 ++ rest = L at this
      cases this with
      | nil g => exact .nil (hs.trans g)
      | cons g1 g2 g3 g4 g5 => exact .cons (hs.trans g1) (fun fr hfr => g2 fr (hs.subset hfr)) g3 g4 g5
    | cons σ T ih =>
      intro hT
      refine .cons (List.Sublist.refl _) (fun _ _ => rfl) (h.lk0 σ (hT σ (by simp))) ?_
        (ih fun τ hτ => hT τ (by simp [hτ]))
      rw [h.mem0 σ (hT σ (by simp))]
      rcases hv with ⟨-, g1, g2⟩ | ⟨g0, g1, g2⟩
      · exact Or.inl ⟨g1, g2⟩
      · exact Or.inr ⟨D0, List.suffix_refl _, g0, g2, g1⟩
  have := h0 T0 (fun _ h => h)
  rw [List.append_assoc]
  generalize T0 ++ (T1 ++ rest) = L at this
  cases this with
  | nil g => exact .nil g
  | cons g1 g2 g3 g4 g5 =>
    exact .cons g1 (fun fr hfr => (g2 fr hfr).trans (hb fr hfr)) g3 g4 g5

end

end Gotcha
