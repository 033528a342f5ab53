import Verif.Model.UnitHash
import Verif.Props.Hash
import Verif.Proof.TextRead
/-
C118: the unit test of the hash table, of any size.
-/
namespace Gotcha.Unit
open Gotcha Spec Spec.Printf HTable HashProps

abbrev GoodTab := Good (K := Name) (D := Nat) strhash

theorem cmp_ok : ∀ a b : Name, (a == b) = true ↔ a = b := by intro a b; exact beq_iff_eq

/-- What the loop over `l` puts into the table. -/
def entries (l : List Nat) : List (Name × Nat) := l.map fun i => (growKey i, i)

theorem addAll_good : ∀ (l : List Nat) {t : HTable Name Nat} {items}, GoodTab t items →
    ∃ t' items', addAll l t = .ok t' ∧ GoodTab t' items' ∧
      (strip items').Perm (entries l ++ strip items)
  | [], t, items, g => ⟨t, items, rfl, g, List.Perm.refl _⟩
  | i :: l, t, items, g => by
    obtain ⟨t1, items1, h1, g1, p1⟩ := addto_good g (growKey i) i
    obtain ⟨t2, items2, h2, g2, p2⟩ := addAll_good l g1
    refine ⟨t2, items2, by simp [addAll, h1, h2], g2, p2.trans ?_⟩
    simp only [entries, List.map_cons, strip, List.cons_append]
    exact List.perm_middle.trans (((p1.map _).append_left _).cons _)

theorem findAll_good {t : HTable Name Nat} {items} (g : GoodTab t items)
    (hu : ∀ k d d', (k, d) ∈ strip items → (k, d') ∈ strip items → d = d') :
    ∀ (l : List Nat), (∀ i ∈ l, (growKey i, i) ∈ strip items) → findAll l t = .ok none
  | [], _ => rfl
  | i :: l, h => by
    have hi := h i (List.mem_cons_self ..)
    have ih := findAll_good g hu l fun j hj => h j (List.mem_cons_of_mem _ hj)
    rcases lookup_good g cmp_ok (growKey i) with ⟨d, h1, h2⟩ | ⟨_, h2⟩
    · have : d = i := hu _ _ _ h2 hi
      subst this
      simp [findAll, h1, ih]
    · exact absurd hi (h2 i)

/-- When two keys coincide the search stops at the first of them whose number is not the one found. -/
theorem findAll_broken {t : HTable Name Nat} {items} (g : GoodTab t items) {a b : Nat} (hab : a ≠ b)
    (hk : growKey a = growKey b) : ∀ (l : List Nat), (∀ i ∈ l, (growKey i, i) ∈ strip items) →
      a ∈ l → b ∈ l → ∃ i, findAll l t = .ok (some i) := by
  intro l h ha hb
  by_contra hn
  have key : ∀ (l : List Nat), (∀ i ∈ l, (growKey i, i) ∈ strip items) →
      (∃ i, findAll l t = .ok (some i)) ∨
      ∀ i ∈ l, t.lookup (strhash (growKey i)) (fun s => s == growKey i) = .ok (some i) := by
    intro l
    induction l with
    | nil => intro _; right; simp
    | cons i l ih =>
      intro h
      have hi := h i (List.mem_cons_self ..)
      rcases lookup_good g cmp_ok (growKey i) with ⟨d, h1, h2⟩ | ⟨_, h2⟩
      · by_cases hd : d = i
        · subst hd
          rcases ih fun j hj => h j (List.mem_cons_of_mem _ hj) with ⟨j, hj⟩ | hall
          · left; exact ⟨j, by simp [findAll, h1, hj]⟩
          · right
            intro j hj
            rcases List.mem_cons.1 hj with rfl | hj
            · exact h1
            · exact hall j hj
        · left; exact ⟨i, by simp [findAll, h1, hd]⟩
      · exact absurd hi (h2 i)
  rcases key l h with h' | h'
  · exact hn h'
  · have e1 := h' a ha
    have e2 := h' b hb
    rw [hk, e2] at e1
    exact hab (by injection e1 with e1; injection e1 with e1; exact e1.symm)

theorem removeAll_good : ∀ (l : List Nat) {t : HTable Name Nat} {items}, GoodTab t items →
    (l.map growKey).Nodup → (strip items).Perm (entries l) →
    ∃ t' items', removeAll l t true = .ok (t', true) ∧ GoodTab t' items' ∧ strip items' = []
  | [], t, items, g, _, hp => ⟨t, items, rfl, g, List.perm_nil.1 hp⟩
  | i :: l, t, items, g, hn, hp => by
    rw [List.map_cons, List.nodup_cons] at hn
    have hmem : (growKey i, i) ∈ strip items := hp.mem_iff.2 (List.mem_cons_self ..)
    rcases remove_good g cmp_ok (growKey i) with ⟨t1, d, IA, IB, h1, h3, g1⟩ | ⟨_, h3⟩
    · have hd : (growKey i, d) ∈ entries (i :: l) := by
        refine hp.mem_iff.1 ?_
        rw [h3]; simp [strip]
      have hdi : d = i := by
        rcases List.mem_cons.1 hd with h | h
        · injection h
        · exfalso
          obtain ⟨j, hj, he⟩ := List.mem_map.1 h
          injection he with h4 h5
          exact hn.1 (List.mem_map.2 ⟨j, hj, h4⟩)
      subst hdi
      obtain ⟨t2, items2, h4, g2, h5⟩ := removeAll_good l g1 hn.2 (by
        have : (strip items).Perm ((growKey d, d) :: strip (IA ++ IB)) := by
          rw [h3]; simp only [strip, List.map_append, List.map_cons]; exact List.perm_middle
        exact List.Perm.cons_inv (this.symm.trans hp))
      exact ⟨t2, items2, by simp [removeAll, h1, h4], g2, h5⟩
    · exact absurd hmem (h3 i)

theorem growKey_inj {a b : Nat} (ha : a < 10 ^ 7) (hb : b < 10 ^ 7) (h : growKey a = growKey b) : a = b := by
  have la := Printf.numeral_len (u := false) (b := 10) (by decide) 6 a ha
  have lb := Printf.numeral_len (u := false) (b := 10) (by decide) 6 b hb
  unfold growKey at h
  rw [List.take_of_length_le la, List.take_of_length_le lb] at h
  exact Text.numeral_inj (by decide) (by decide) h

theorem growKey_same : growKey (10 ^ 6) = growKey (10 ^ 7) := by
  decide +kernel

/-- C118: `hash_grow_test` passes for every number of entries up to ten million, … -/
theorem C118_hash_grow_test (page n : Nat) (hp : 48 ≤ page) (h0 : 0 < n) (hn : n ≤ 10 ^ 7) :
    hashGrowTest page n = .ok none := by
  obtain ⟨t0, c0, g0⟩ := create_good (D := Nat) strhash hp (initial := 1) (by decide)
  obtain ⟨t1, items, c1, g1, p1⟩ := addAll_good (List.range n) g0
  have p1' : (strip items).Perm (entries (List.range n)) := by simpa [strip] using p1
  have inj : ∀ i ∈ List.range n, ∀ j ∈ List.range n, growKey i = growKey j → i = j := by
    intro i hi j hj h
    rw [List.mem_range] at hi hj
    exact growKey_inj (by omega) (by omega) h
  have c2 := findAll_good g1 (by
    intro k d d' h h'
    obtain ⟨i, hi, e⟩ := List.mem_map.1 (p1'.mem_iff.1 h)
    obtain ⟨j, hj, e'⟩ := List.mem_map.1 (p1'.mem_iff.1 h')
    injection e with e1 e2
    injection e' with e3 e4
    rw [← e2, ← e4]
    exact inj i hi j hj (e1.trans e3.symm)) (List.range n) (by
    intro i hi
    exact p1'.mem_iff.2 (List.mem_map.2 ⟨i, hi, rfl⟩))
  obtain ⟨t2, items2, c3, g2, h2⟩ := removeAll_good (List.range n) g1
    (List.Nodup.map_on inj List.nodup_range) p1'
  unfold hashGrowTest
  simp only [c0, c1, c2, c3]
  rcases remove_good g2 cmp_ok (growKey 0) with ⟨_, d, IA, IB, _, h3, _⟩ | ⟨h4, _⟩
  · rw [h3] at h2
    simp [strip] at h2
  · rw [h4]

/-- C118: … and fails for every larger one: the keys 1000000 and 10000000 are the same after seven characters. -/
theorem C118_hash_grow_test_fails (page n : Nat) (hp : 48 ≤ page) (hn : 10 ^ 7 < n) :
    hashGrowTest page n = .ok (some .notFound) := by
  obtain ⟨t0, c0, g0⟩ := create_good (D := Nat) strhash hp (initial := 1) (by decide)
  obtain ⟨t1, items, c1, g1, p1⟩ := addAll_good (List.range n) g0
  have p1' : (strip items).Perm (entries (List.range n)) := by simpa [strip] using p1
  obtain ⟨i, c2⟩ := findAll_broken g1 (a := 10 ^ 6) (b := 10 ^ 7) (by decide) growKey_same (List.range n)
    (by
      intro i hi
      exact p1'.mem_iff.2 (List.mem_map.2 ⟨i, hi, rfl⟩))
    (by rw [List.mem_range]; omega) (by rw [List.mem_range]; omega)
  unfold hashGrowTest
  simp only [c0, c1, c2]

/-- Not vacuous: the number of the test. -/
example : hashGrowTest 4096 16384 = .ok none := C118_hash_grow_test 4096 16384 (by decide) (by decide) (by decide)

example : hashGrowTest 96 5 = .ok none := by decide +kernel

end Gotcha.Unit
