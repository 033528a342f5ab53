import Verif.Model.UnitHeap
import Verif.Props.Malloc
import Mathlib.Data.List.Nodup
/-
Lemmas about the unit test of the allocator.
-/
namespace Gotcha.Unit
open Gotcha Spec.Malloc Props

/-- The bytes mapped. -/
def total (R : List (Nat × Nat)) : Nat := (R.map (·.2)).sum

/-- The largest area that `gotcha_malloc` maps for at most `m` bytes. -/
def areaMax (pg m : Nat) : Nat := 32768 + m + 24 + pg

/-- The regions that `mmap` has handed out, with those of `R₀` before. -/
inductive Asked (mm : Mmap) (R₀ : List (Nat × Nat)) : List (Nat × Nat) → Prop
  | start : Asked mm R₀ R₀
  | more {R l a} : Asked mm R₀ R → 8 ≤ l → mm R l = some a → Asked mm R₀ ((a, l) :: R)

theorem mem_zero {pg : Nat} (hp : PageSize pg) {w : World} (h : Reach pg w) : w.heap.mem 0 = none := by
  obtain ⟨A, hr⟩ := reachRep hp h
  by_contra h0
  obtain ⟨_, r, hr', h1, _⟩ := (hr.inv.mapped 0).mp h0
  have := hr.inv.regsOk r hr'
  omega

theorem live_nodup {pg : Nat} (hp : PageSize pg) {w : World} (h : Reach pg w) : (w.live.map (·.1)).Nodup := by
  obtain ⟨fl, _, _, h1, _⟩ := C34_tiling hp h
  exact (C33_apart hp h h1).1

theorem live_uniq {pg : Nat} (hp : PageSize pg) {w : World} (h : Reach pg w) {b c : Nat × Nat}
    (hb : b ∈ w.live) (hc : c ∈ w.live) (he : b.1 = c.1) : b = c :=
  (List.inj_on_of_nodup_map (live_nodup hp h)) hb hc he

theorem live_pos {pg : Nat} (hp : PageSize pg) {w : World} (h : Reach pg w) {b : Nat × Nat}
    (hb : b ∈ w.live) : b.1 ≠ 0 := by
  obtain ⟨fl, _, _, h1, _⟩ := C34_tiling hp h
  have := ((C33_apart hp h h1).2 b hb).1
  omega

theorem blockLen_le {pg m : Nat} (hp : PageSize pg) (hm : m < 2 ^ 40) :
    Malloc.blockLen pg (Malloc.roundSize m) ≤ areaMax pg m := by
  obtain ⟨r1, r2, r3, r4, r5⟩ := Malloc.roundSize_spec (show m < 2 ^ 63 by omega)
  have hr : Malloc.roundSize m < m + 16 := by omega
  obtain ⟨h1, h2, h3⟩ := hp
  generalize Malloc.roundSize m = s at *
  have hlt : (s + 8) % pg < pg := Nat.mod_lt _ h2
  unfold Malloc.blockLen Malloc.wrap areaMax
  simp only
  rw [Nat.mod_eq_of_lt (show s + 8 < 2 ^ 64 by omega)]
  split
  · rw [if_pos (show s + 8 < 2 ^ 63 by omega)]
    split
    · rw [Nat.mod_eq_of_lt (by omega)]; omega
    · omega
  · omega

theorem malloc_call {h h' : Malloc.Heap} {pg n p : Nat} {mm call} (e : Malloc.malloc h pg mm n = .ok (h', p, call)) :
    call = none ∨ call = some (Malloc.blockLen pg (Malloc.roundSize n), mm (Malloc.blockLen pg (Malloc.roundSize n))) := by
  unfold Malloc.malloc at e
  simp only at e
  repeat' split at e
  all_goals first | (cases e; done) | skip
  all_goals
    simp only [Except.ok.injEq, Prod.mk.injEq] at e
    obtain ⟨_, _, rfl⟩ := e
    first | (left; rfl) | (right; simp_all; done)

section
variable {pg : Nat} {mm : Mmap}

theorem alloc_ok (hp : PageSize pg) (hf : ∀ R l a, mm R l = some a → Fresh R a l) {w : World} (h : Reach pg w)
    {n : Nat} (hn : n < 2 ^ 40) :
    ∃ w' p, alloc pg mm n w = .ok (w', p) ∧ Reach pg w' ∧
      total w'.regions ≤ total w.regions + areaMax pg n ∧
      (∀ R₀, Asked mm R₀ w.regions → Asked mm R₀ w'.regions) ∧
      (∀ c ∈ w.live, ∀ i, 8 * i < c.2 → w'.heap.mem (c.1 + 8 * i) = w.heap.mem (c.1 + 8 * i)) ∧
      (p = 0 → w'.live = w.live ∧ ∃ l, l ≤ areaMax pg n ∧ mm w.regions l = none) ∧
      (p ≠ 0 → w'.live = (p, n) :: w.live ∧ ∀ c ∈ w.live, c.1 ≠ p) := by
  have hn' : n < 2 ^ 63 := by omega
  obtain ⟨h', p, call, e, hne⟩ := C33_malloc hp h hn' (mm := mm w.regions) (fun l a => hf _ l a)
  have hok : Ok w (.malloc n (mm w.regions)) := ⟨hn', fun l a => hf _ l a⟩
  have hs : step pg w (.malloc n (mm w.regions)) = .ok
      { heap := h', live := if p = 0 then w.live else (p, n) :: w.live, regions := addRegion call w.regions } := by
    simp only [step, e]
  have hreach := Reach.step h hok hs
  refine ⟨_, p, by simp only [alloc, e], hreach, ?_, ?_, ?_, ?_, ?_⟩
  · rcases malloc_call e with rfl | rfl
    · simp [addRegion]
    · have := blockLen_le hp hn
      unfold addRegion
      cases mm w.regions (Malloc.blockLen pg (Malloc.roundSize n)) with
      | none => simp
      | some a => simp [total] at this ⊢; omega
  · intro R₀ hR
    rcases malloc_call e with rfl | rfl
    · exact hR
    · obtain ⟨r1, _, _, r4, _⟩ := Malloc.roundSize_spec hn'
      have hlen := (Malloc.blockLen_spec r1 r4 hp.1 hp.2.1 (by have := hp.2.2; omega)).2.1
      simp only [addRegion]
      cases ha : mm w.regions (Malloc.blockLen pg (Malloc.roundSize n)) with
      | none => exact hR
      | some a => exact .more hR (by omega) ha
  · intro c hc i hi
    refine C35_others_kept hp h hok hs hc ?_ (by intro _ _ h; cases h) hi
    simp only
    split
    · exact hc
    · exact List.mem_cons_of_mem _ hc
  · intro h0
    subst h0
    refine ⟨by simp, ?_⟩
    have hA := reachRep hp h
    obtain ⟨A, hr⟩ := hA
    have ha := Malloc.alloc_spec hr hp.1 hp.2.1 (by have := hp.2.2; omega) hn' (mm := mm w.regions)
      (fun l a => hf _ l a)
    cases hal : A.alloc pg n (mm w.regions) with
    | none =>
      rw [hal] at ha
      simp only at ha
      rw [ha] at e
      simp only [Except.ok.injEq, Prod.mk.injEq] at e
      refine ⟨_, blockLen_le hp hn, ?_⟩
      rcases malloc_call ha with h1 | h1
      · cases h1
      · injection h1 with h1
        injection h1 with _ h1
        exact h1.symm
    | some t =>
      obtain ⟨A', p'⟩ := t
      rw [hal] at ha
      obtain ⟨_, _, _, e', hp', _⟩ := ha
      rw [e'] at e
      simp only [Except.ok.injEq, Prod.mk.injEq] at e
      exact absurd e.2.1 hp'
  · intro h0
    refine ⟨by simp [h0], fun c hc => ((hne h0).2.2.2.1 c hc).1⟩

theorem release_ok (hp : PageSize pg) {w : World} (h : Reach pg w) {p n : Nat} (hl : (p, n) ∈ w.live) :
    ∃ w', release p w = .ok w' ∧ Reach pg w' ∧ w'.regions = w.regions ∧
      w'.live = w.live.filter (fun b => b.1 ≠ p) ∧
      ∀ c ∈ w.live, c.1 ≠ p → ∀ i, 8 * i < c.2 → w'.heap.mem (c.1 + 8 * i) = w.heap.mem (c.1 + 8 * i) := by
  have hok : Ok w (.free p) := ⟨n, hl⟩
  obtain ⟨w', e⟩ := C33_no_fault hp h hok
  have e' : release p w = .ok w' := e
  have hr : w'.regions = w.regions ∧ w'.live = w.live.filter (fun b => b.1 ≠ p) := by
    unfold release at e'
    split at e'
    · cases e'
    · cases e'; exact ⟨rfl, rfl⟩
  refine ⟨w', e', Reach.step h hok e, hr.1, hr.2, ?_⟩
  intro c hc hne i hi
  refine C35_others_kept hp h hok e hc ?_ (by intro _ _ h; cases h) hi
  rw [hr.2, List.mem_filter]
  exact ⟨hc, by simpa using hne⟩

theorem setWord_ok (hp : PageSize pg) {w : World} (h : Reach pg w) {p n i : Nat} (hl : (p, n) ∈ w.live)
    (hi : 8 * i < n) (v : Nat) :
    ∃ w', setWord (p + 8 * i) v w = .ok w' ∧ Reach pg w' ∧ w'.regions = w.regions ∧ w'.live = w.live ∧
      w'.heap.mem = upd w.heap.mem (p + 8 * i) (some v) ∧
      ∀ c ∈ w.live, c.1 ≠ p → ∀ k, 8 * k < c.2 → w'.heap.mem (c.1 + 8 * k) = w.heap.mem (c.1 + 8 * k) := by
  have hok : Ok w (.write p i v) := ⟨n, hl, hi⟩
  obtain ⟨w', e⟩ := C33_no_fault hp h hok
  have e' : setWord (p + 8 * i) v w = .ok w' := e
  have hr : w'.regions = w.regions ∧ w'.live = w.live ∧
      w'.heap.mem = upd w.heap.mem (p + 8 * i) (some v) := by
    unfold setWord Malloc.store at e'
    cases hm : w.heap.mem (p + 8 * i) with
    | none => simp [hm] at e'
    | some x => simp only [hm, Except.ok.injEq] at e'; subst e'; exact ⟨rfl, rfl, rfl⟩
  refine ⟨w', e', Reach.step h hok e, hr.1, hr.2.1, hr.2.2, ?_⟩
  intro c hc hne k hk
  refine C35_others_kept hp h hok e hc (by rw [hr.2.1]; exact hc) ?_ hk
  intro _ _ h'
  injection h' with h'
  exact hne h'.symm

theorem word_mapped (hp : PageSize pg) {w : World} (h : Reach pg w) {p n i : Nat} (hl : (p, n) ∈ w.live)
    (hi : 8 * i < n) : ∃ v, w.heap.mem (p + 8 * i) = some v := by
  obtain ⟨w', e, _⟩ := setWord_ok hp h hl hi 0
  unfold setWord Malloc.store at e
  cases hm : w.heap.mem (p + 8 * i) with
  | none => simp [hm] at e
  | some x => exact ⟨x, rfl⟩

theorem setWord_null (hp : PageSize pg) {w : World} (h : Reach pg w) (v : Nat) :
    setWord 0 v w = .error .outOfBounds := by
  simp [setWord, Malloc.store, mem_zero hp h]

theorem release_null (hp : PageSize pg) {w : World} (h : Reach pg w) :
    release 0 w = .error .outOfBounds := by
  have e : Malloc.wrap (Malloc.sub64 0 8 + 8) = 0 := by decide
  simp [release, Malloc.free, e, Malloc.store, mem_zero hp h]

end

theorem half_set (v k x : Nat) (hx : x < 2 ^ 32) : half (setHalf v k x) k = x := by
  unfold half setHalf
  split <;> omega

theorem half_other (v k l x : Nat) (h : k % 2 ≠ l % 2) : half (setHalf v k x) l = half v l := by
  unfold half setHalf
  split <;> split <;> omega

end Gotcha.Unit
