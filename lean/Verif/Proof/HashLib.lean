import Verif.Model.HashLib
import Verif.Proof.Heap
import Verif.Props.Hash
/-
The heap of a client of src/hash.c.
-/
namespace Gotcha.Heap
open Gotcha Spec HashProps

variable {K D : Type}

theorem putAt_same {α : Type} (f : Nat → α) (i x) : putAt f i x i = x := by simp [putAt]

theorem putAt_ne {α : Type} (f : Nat → α) {i j} (x) (h : j ≠ i) : putAt f i x j = f j := by simp [putAt, h]

/-- The blocks are the arrays `ar` of the tables. -/
structure Own (k : Kind) (ar : Nat → Option (Nat × Nat)) (h : Mem) : Prop where
  nodup : (h.live.map Block.id).Nodup
  lt : ∀ b ∈ h.live, b.id < h.calls
  mem : ∀ {i a n}, ar i = some (a, n) → ⟨a, k, n⟩ ∈ h.live
  only : ∀ b ∈ h.live, ∃ i, ar i = some (b.id, b.len)
  inj : ∀ {i j a n n'}, ar i = some (a, n) → ar j = some (a, n') → i = j

theorem Own.bump {k ar h} (w : Own k ar h) : Own k ar { h with calls := h.calls + 1 } :=
  ⟨w.nodup, fun b hb => Nat.lt_succ_of_lt (w.lt b hb), w.mem, w.only, w.inj⟩

theorem Own.alloc {k ar h} (w : Own k ar h) {i : Nat} (hi : ar i = none) (n : Nat) :
    Own k (putAt ar i (some (h.calls, n))) { h with calls := h.calls + 1, live := ⟨h.calls, k, n⟩ :: h.live } where
  nodup := by
    show ((⟨h.calls, k, n⟩ :: h.live).map Block.id).Nodup
    rw [List.map_cons, List.nodup_cons]
    refine ⟨fun hm => ?_, w.nodup⟩
    obtain ⟨b, hb, e⟩ := List.mem_map.1 hm
    have := w.lt b hb
    simp only at e
    omega
  lt := by
    intro b hb
    rcases List.mem_cons.1 hb with rfl | hb
    · exact Nat.lt_succ_self _
    · exact Nat.lt_succ_of_lt (w.lt b hb)
  mem := by
    intro j a m e
    show _ ∈ ⟨h.calls, k, n⟩ :: h.live
    by_cases hj : j = i
    · subst hj
      rw [putAt_same] at e
      cases e
      simp
    · rw [putAt_ne _ _ hj] at e
      exact List.mem_cons_of_mem _ (w.mem e)
  only := by
    intro b hb
    rcases List.mem_cons.1 hb with rfl | hb
    · exact ⟨i, putAt_same ..⟩
    · obtain ⟨j, hj⟩ := w.only b hb
      refine ⟨j, ?_⟩
      rw [putAt_ne _ _ (fun e => by subst e; rw [hi] at hj; cases hj), hj]
  inj := by
    have hc : ∀ {j m}, ar j ≠ some (h.calls, m) := fun e => absurd (w.lt _ (w.mem e)) (Nat.lt_irrefl _)
    intro j j' a m m' e e'
    by_cases hj : j = i <;> by_cases hj' : j' = i
    · rw [hj, hj']
    · subst hj
      rw [putAt_same] at e
      rw [putAt_ne _ _ hj'] at e'
      cases e
      exact absurd e' hc
    · subst hj'
      rw [putAt_same] at e'
      rw [putAt_ne _ _ hj] at e
      cases e'
      exact absurd e hc
    · rw [putAt_ne _ _ hj] at e
      rw [putAt_ne _ _ hj'] at e'
      exact w.inj e e'

theorem Own.free {k ar h} (w : Own k ar h) {i a n : Nat} (hi : ar i = some (a, n)) :
    h.live.any (fun b => b.id == a) = true ∧
    Own k (putAt ar i none) { h with live := h.live.eraseP (fun b => b.id == a) } := by
  have hb := w.mem hi
  have he : h.live.eraseP (fun b => b.id == a) = h.live.erase ⟨a, k, n⟩ := eraseP_id w.nodup hb
  have hnd : h.live.Nodup := List.Nodup.of_map _ w.nodup
  refine ⟨List.any_eq_true.2 ⟨_, hb, by simp⟩, w.nodup.sublist ((List.eraseP_sublist).map _),
    fun b hb => w.lt b (List.mem_of_mem_eraseP hb), ?_, ?_, ?_⟩
  · intro j a' m e
    by_cases hj : j = i
    · subst hj
      rw [putAt_same] at e
      cases e
    · rw [putAt_ne _ _ hj] at e
      show _ ∈ h.live.eraseP _
      rw [he, hnd.mem_erase_iff]
      refine ⟨fun eq => ?_, w.mem e⟩
      cases eq
      exact hj (w.inj e hi)
  · intro b hb
    replace hb : b ∈ h.live.eraseP _ := hb
    rw [he, hnd.mem_erase_iff] at hb
    obtain ⟨j, hj⟩ := w.only b hb.2
    refine ⟨j, ?_⟩
    rw [putAt_ne _ _ (fun e => ?_), hj]
    subst e
    rw [hi] at hj
    cases hj
    refine hb.1 ?_
    have := List.inj_on_of_nodup_map w.nodup hb.2 (w.mem hi) rfl
    exact this
  · intro j j' a' m m' e e'
    by_cases hj : j = i
    · subst hj; rw [putAt_same] at e; cases e
    · by_cases hj' : j' = i
      · subst hj'; rw [putAt_same] at e'; cases e'
      · rw [putAt_ne _ _ hj] at e
        rw [putAt_ne _ _ hj'] at e'
        exact w.inj e e'

theorem Own.congr {k ar ar' h} (w : Own k ar h) (e : ar = ar') : Own k ar' h := e ▸ w

/-- `addto_hashtable` with the heap: no growth, growth, or no memory. -/
theorem addto_heap {hash : K → BitVec 32} {t : HTable K D} {items} (g : Good hash t items) (kind : Kind) (a : Nat)
    (k : K) (d : D) (o h) : ∃ t' items', Good hash t' ((hash k, k, d) :: items') ∧ items'.Perm items ∧
    ((t'.size = t.size ∧ addto kind t (some a) k d (hash k) o h = .ok ((t', some a), h)) ∨
     (∃ n, t'.size = n ∧ o h.calls = true ∧
      addto kind t (some a) k d (hash k) o h =
        match free (some a) o { h with calls := h.calls + 1, live := ⟨h.calls, kind, n⟩ :: h.live } with
        | .error e => .error e
        | .ok (_, h') => .ok ((t', some h.calls), h')) ∨
     (o h.calls = false ∧ addto kind t (some a) k d (hash k) o h = .error (.fault .nullDeref))) := by
  obtain ⟨t', items', e, g', p⟩ := addto_good g k d
  refine ⟨t', items', g', p, ?_⟩
  unfold HTable.addto at e
  cases hn : HTable.growSize t.count t.size with
  | error f => rw [hn] at e; cases e
  | ok n =>
    rw [hn] at e
    simp only at e
    by_cases hne : n ≠ t.size
    · rw [if_pos hne] at e
      cases hg : t.grow n with
      | error f => rw [hg] at e; cases e
      | ok t1 =>
        rw [hg] at e
        simp only at e
        have hs : t'.size = n := (insert_size _ _ _ _ _ e).trans (grow_size _ _ _ hg)
        right
        cases ho : o h.calls with
        | true =>
          left
          refine ⟨n, hs, rfl, ?_⟩
          simp only [addto, bind, M.andThen, lift, hn, hne, ne_eq, not_false_eq_true, if_true, grow, need, alloc, ho, hg,
            pure, M.ret, if_pos]
          cases free (some a) o { h with calls := h.calls + 1, live := ⟨h.calls, kind, n⟩ :: h.live } with
          | error f => rfl
          | ok r => simp only [e]
        | false =>
          right
          refine ⟨rfl, ?_⟩
          simp [addto, bind, M.andThen, lift, hn, hne, grow, need, alloc, ho, fail]
    · rw [if_neg hne] at e
      left
      refine ⟨insert_size _ _ _ _ _ e, ?_⟩
      simp only [addto, bind, M.andThen, lift, hn, if_neg hne, e, pure, M.ret]

end Gotcha.Heap
