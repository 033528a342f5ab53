import Verif.Proof.MallocWorld
/-
Properties of the allocator (C33-C38).

The page size is a positive `int` and a multiple of 8.  `Reach pg w` are the states of programs that
ask for less than 2^63 bytes, free, resize and write only what they own, with an `mmap` that fails or
returns fresh memory.
-/
namespace Gotcha.Props
open Gotcha Gotcha.Malloc Gotcha.Spec.Malloc

/-- The page size is a positive `int` and a multiple of 8. -/
def PageSize (pg : Nat) : Prop := pg % 8 = 0 ∧ 0 < pg ∧ pg < 2 ^ 31

theorem reach_step {pg : Nat} (hp : PageSize pg) {w : World} {A : Abs} (h : Reach pg w) (hr : Rep w A)
    {op : Op} (hok : Ok w op) : ∃ w', Reach pg w' ∧ Rep w' (A.step pg op) := by
  obtain ⟨w', e1, e2⟩ := step_spec hr hp.1 hp.2.1 (by have := hp.2.2; omega) hok
  exact ⟨w', Reach.step h hok e1, e2⟩

theorem reachRep {pg : Nat} (hp : PageSize pg) {w : World} (h : Reach pg w) : ∃ A, Rep w A :=
  reach_rep hp.1 hp.2.1 (by have := hp.2.2; omega) h

theorem freeList_unique {mem : Nat → Option Nat} (h0 : mem 0 = none) : ∀ {L M : List Blk} {cur : Nat},
    FreeList mem cur L → FreeList mem cur M → L = M
  | [], [], _, _, _ => rfl
  | [], b :: M, cur, h, ⟨h1, h2, _⟩ => by
    have h' : cur = 0 := h
    rw [← h1, h', h0] at h2
    cases h2
  | b :: L, [], cur, ⟨h1, h2, _⟩, h => by
    have h' : cur = 0 := h
    rw [← h1, h', h0] at h2
    cases h2
  | b :: L, c :: M, cur, ⟨h1, h2, n, h3, h4⟩, ⟨g1, g2, m, g3, g4⟩ => by
    have e : b.1 = c.1 := h1.symm.trans g1
    rw [e] at h2 h3
    rw [h2] at g2
    rw [h3] at g3
    cases g3
    rw [freeList_unique h0 h4 g4, Prod.ext e (Option.some.inj g2)]

theorem rep_free {w : World} {A : Abs} (hr : Rep w A) {fl : List Blk}
    (h : FreeList w.heap.mem w.heap.free fl) : fl = A.fl := by
  refine freeList_unique ?_ h hr.inv.chain
  by_contra h0
  obtain ⟨_, r, hr', h1, _⟩ := (hr.inv.mapped 0).mp h0
  have := hr.inv.regsOk r hr'
  omega

/-- A state with one live block and two free blocks, used as the witness below. -/
theorem sample_heap : ∃ w, Reach 4096 w ∧ w.live = [(4128, 100)] ∧ w.regions = [(4096, 32768)] ∧
    FreeList w.heap.mem w.heap.free [(4096, 16), (4232, 32624)] := by
  have hp : PageSize 4096 := ⟨rfl, by decide, by decide⟩
  obtain ⟨w1, r1, p1⟩ := reach_step hp (op := .malloc 10 fun l => if l = 32768 then some 4096 else none)
    Reach.init rep_init ⟨by decide, by
      intro l a h
      simp only at h
      split at h
      · cases h
        rename_i hl
        subst hl
        exact ⟨by decide, by decide, by decide, by intro r hr; cases hr⟩
      · cases h⟩
  obtain ⟨w2, r2, p2⟩ := reach_step hp (op := .malloc 100 fun _ => none) r1 p1
    ⟨by decide, by intro l a h; cases h⟩
  obtain ⟨w3, r3, p3⟩ := reach_step hp (op := .free 4104) r2 p2 ⟨10, by rw [p2.live]; decide +kernel⟩
  refine ⟨w3, r3, p3.live.trans (by decide +kernel), p3.regions.trans (by decide +kernel), ?_⟩
  have hc := p3.inv.chain
  have e : (((Abs.step 4096 ⟨[], [], []⟩ (.malloc 10 fun l => if l = 32768 then some 4096 else none)).step
      4096 (.malloc 100 fun _ => none)).step 4096 (.free 4104)).fl = [(4096, 16), (4232, 32624)] := by
    decide +kernel
  rw [e] at hc
  exact hc

/-! ## C33 -/

/-- C33: a correct program never makes the allocator fault. -/
theorem C33_no_fault {pg : Nat} (hp : PageSize pg) {w : World} (h : Reach pg w) {op : Op}
    (hok : Ok w op) : ∃ w', step pg w op = .ok w' := by
  obtain ⟨A, hr⟩ := reachRep hp h
  obtain ⟨w', e, _⟩ := step_spec hr hp.1 hp.2.1 (by have := hp.2.2; omega) hok
  exact ⟨w', e⟩

/-- C33: in every reachable state the live blocks are aligned, lie in mapped memory, have distinct
addresses and do not overlap each other, any header, or any block of the free list. -/
theorem C33_apart {pg : Nat} (hp : PageSize pg) {w : World} (h : Reach pg w) {fl : List Blk}
    (hfl : FreeList w.heap.mem w.heap.free fl) : (w.live.map (·.1)).Nodup ∧
    ∀ b ∈ w.live, 8 < b.1 ∧ b.1 % 8 = 0 ∧
      (∃ r ∈ w.regions, r.1 ≤ b.1 - 8 ∧ b.1 + b.2 ≤ r.1 + r.2) ∧
      (∀ c ∈ w.live, c.1 ≠ b.1 → Apart b.1 b.2 (c.1 - 8) (8 + c.2)) ∧
      (∀ f ∈ fl, Apart b.1 b.2 f.1 (8 + f.2) ∧ Apart (b.1 - 8) 8 f.1 (8 + f.2)) := by
  obtain ⟨A, hr⟩ := reachRep hp h
  have hf := rep_free hr hfl
  subst hf
  constructor
  · rw [hr.live, List.map_map, List.Nodup, List.pairwise_map]
    refine (used_inj hr.inv).imp ?_
    intro u v huv
    simpa [Used.user] using huv
  · intro b hb
    obtain ⟨u, hu, e1, e2⟩ := live_used hr (p := b.1) (n := b.2) hb
    have hub : u.blk ∈ A.us.map Used.blk := List.mem_map_of_mem hu
    obtain ⟨b1, b2, r, hrr, b3⟩ := hr.inv.bounds (List.mem_append_right _ hub)
    have hs := hr.inv.sizes _ (List.mem_append_right _ hub)
    have hen := hr.enough u hu
    have hpw := hr.inv.pairwise
    rw [List.pairwise_append] at hpw
    simp only [Used.blk] at b1 b2 b3 hs
    refine ⟨by omega, by omega, ⟨r, by rw [hr.regions]; exact hrr, by omega, by omega⟩, ?_, ?_⟩
    · intro c hc hne
      obtain ⟨v, hv, f1, f2⟩ := live_used hr (p := c.1) (n := c.2) hc
      have hd : Disj u.blk v.blk := pairwise_disj hpw.2.1 hub (List.mem_map_of_mem hv) (by
        intro e
        have := (Prod.mk.inj e).1
        omega)
      have hen' := hr.enough v hv
      unfold Disj Used.blk at hd
      unfold Apart at *
      simp only at hd
      omega
    · intro f hf
      have hd := hr.inv.apart_fl_us hf hub
      unfold Disj Used.blk at hd
      unfold Apart at *
      simp only at hd
      omega

example : ∃ w fl, Reach 4096 w ∧ PageSize 4096 ∧ FreeList w.heap.mem w.heap.free fl ∧
    w.live.length = 1 ∧ fl.length = 2 := by
  obtain ⟨w, h1, h2, _, h4⟩ := sample_heap
  exact ⟨w, _, h1, ⟨rfl, by decide, by decide⟩, h4, by rw [h2]; rfl, rfl⟩

/-- C33: what `gotcha_malloc(n)` returns, if it is not NULL, is aligned, lies in memory from `mmap`,
and does not overlap any live block or its header, nor its own header, nor the free list. -/
theorem C33_malloc {pg : Nat} (hp : PageSize pg) {w : World} (h : Reach pg w) {n : Nat}
    (hn : n < 2 ^ 63) {mm : Nat → Option Nat} (henv : ∀ l a, mm l = some a → Fresh w.regions a l) :
    ∃ h' p call, malloc w.heap pg mm n = .ok (h', p, call) ∧ (p ≠ 0 →
      8 < p ∧ p % 8 = 0 ∧ (∃ r ∈ addRegion call w.regions, r.1 ≤ p - 8 ∧ p + n ≤ r.1 + r.2) ∧
      (∀ c ∈ w.live, c.1 ≠ p ∧ Apart p n (c.1 - 8) (8 + c.2) ∧ Apart (p - 8) 8 (c.1 - 8) (8 + c.2)) ∧
      ∃ fl, FreeList h'.mem h'.free fl ∧ ∀ f ∈ fl, Apart p n f.1 (8 + f.2)) := by
  obtain ⟨A, hr⟩ := reachRep hp h
  have hok : Ok w (.malloc n mm) := ⟨hn, henv⟩
  obtain ⟨w', e1, e2⟩ := step_spec hr hp.1 hp.2.1 (by have := hp.2.2; omega) hok
  have hreach := Reach.step h hok e1
  unfold step at e1
  simp only at e1
  cases hm : malloc w.heap pg mm n with
  | error f => rw [hm] at e1; cases e1
  | ok t =>
    obtain ⟨h', p, call⟩ := t
    rw [hm] at e1
    simp only at e1
    refine ⟨h', p, call, rfl, fun hne => ?_⟩
    rw [if_neg hne] at e1
    have e3 := Except.ok.inj e1
    obtain ⟨c0, c1⟩ := C33_apart hp hreach e2.inv.chain
    have hl : w'.live = (p, n) :: w.live := by rw [← e3]
    have hreg : w'.regions = addRegion call w.regions := by rw [← e3]
    have hheap : w'.heap = h' := by rw [← e3]
    rw [hl] at c0 c1
    obtain ⟨d1, d2, d3, d4, d5⟩ := c1 (p, n) (List.mem_cons_self ..)
    refine ⟨d1, d2, by rw [← hreg]; exact d3, ?_, _, by rw [← hheap]; exact e2.inv.chain,
      fun f hf => (d5 f hf).1⟩
    intro c hc
    have hcp : c.1 ≠ p := by
      intro e
      rw [List.map_cons, List.nodup_cons] at c0
      exact c0.1 (List.mem_map.mpr ⟨c, hc, e⟩)
    obtain ⟨g1, _, _, g4, _⟩ := c1 c (List.mem_cons_of_mem _ hc)
    have g5 := g4 (p, n) (List.mem_cons_self ..) (Ne.symm hcp)
    have d6 := d4 c (List.mem_cons_of_mem _ hc) hcp
    simp only at d1 g5 d6
    refine ⟨hcp, d6, ?_⟩
    unfold Apart at *
    -- the two headers are different words at multiples of 8
    obtain ⟨u, hu, hu1, _⟩ := live_used e2 (p := p) (n := n) (by rw [hl]; exact List.mem_cons_self ..)
    obtain ⟨v, hv, hv1, hv2⟩ := live_used e2 (p := c.1) (n := c.2)
      (by rw [hl]; exact List.mem_cons_of_mem _ hc)
    have hpw := e2.inv.pairwise
    rw [List.pairwise_append] at hpw
    have hd : Disj u.blk v.blk := pairwise_disj hpw.2.1 (List.mem_map_of_mem hu)
      (List.mem_map_of_mem hv) (by
        intro e
        have := (Prod.mk.inj e).1
        omega)
    have hen := e2.enough v hv
    unfold Disj Apart Used.blk at hd
    simp only at hd
    omega

example : ∃ w, Reach 4096 w ∧ w.live = [(4128, 100)] ∧
    (∀ l a, (fun _ => none : Nat → Option Nat) l = some a → Fresh w.regions a l) := by
  obtain ⟨w, h1, h2, _⟩ := sample_heap
  exact ⟨w, h1, h2, by intro l a h; cases h⟩

/-! ## C34 -/

/-- C34: the blocks of the live allocations and of the free list, with their headers, tile the memory
from `mmap` exactly; the free list ends, and no block occurs twice. -/
theorem C34_tiling {pg : Nat} (hp : PageSize pg) {w : World} (h : Reach pg w) :
    ∃ fl us B, FreeList w.heap.mem w.heap.free fl ∧
      List.Forall₂ (fun (l b : Nat × Nat) => l.1 = b.1 + 8 ∧ l.2 ≤ b.2 ∧ w.heap.mem b.1 = some b.2)
        w.live us ∧
      Cover w.regions B ∧ (fl ++ us).Perm B ∧ ((fl ++ us).map (·.1)).Nodup ∧
      w.regions.Pairwise (fun r s => Apart r.1 r.2 s.1 s.2) := by
  obtain ⟨A, hr⟩ := reachRep hp h
  obtain ⟨B, c1, c2⟩ := hr.inv.cover
  refine ⟨A.fl, A.us.map Used.blk, B, hr.inv.chain, ?_, by rw [hr.regions]; exact c1, c2, ?_,
    by rw [hr.regions]; exact hr.inv.regsApart⟩
  · rw [hr.live, List.forall₂_map_left_iff, List.forall₂_map_right_iff, List.forall₂_same]
    intro u hu
    exact ⟨rfl, hr.enough u hu, hr.inv.hdr _ (List.mem_map_of_mem hu)⟩
  · rw [List.Nodup, List.pairwise_map]
    refine hr.inv.pairwise.imp ?_
    intro b c hd he
    unfold Disj Apart at hd
    omega

example : ∃ w, Reach 4096 w ∧ w.live ≠ [] ∧ w.regions = [(4096, 32768)] ∧ w.heap.free ≠ 0 := by
  obtain ⟨w, h1, h2, h3, h4⟩ := sample_heap
  refine ⟨w, h1, by rw [h2]; simp, h3, ?_⟩
  rw [h4.1]
  decide

/-! ## C35 -/

/-- C35: `gotcha_realloc` of a live block.  NULL leaves everything as it was.  Otherwise the result is
live afterwards (so C33 applies to it) and begins with the old contents; the contents of all other live
blocks are unchanged in both cases. -/
theorem C35_realloc {pg : Nat} (hp : PageSize pg) {w : World} (h : Reach pg w) {p m n : Nat}
    (hlive : (p, m) ∈ w.live) (hn : n < 2 ^ 63) {mm : Nat → Option Nat}
    (henv : ∀ l a, mm l = some a → Fresh w.regions a l) :
    ∃ h' q call w', realloc w.heap pg mm p n = .ok (h', q, call) ∧
      step pg w (.realloc p n mm) = .ok w' ∧ Reach pg w' ∧ w'.heap = h' ∧
      (q = 0 → h' = w.heap ∧ w'.live = w.live) ∧
      (q ≠ 0 → (q, n) ∈ w'.live ∧
        ∀ i, 8 * i < min m n → ∃ v, w.heap.mem (p + 8 * i) = some v ∧ h'.mem (q + 8 * i) = some v) ∧
      (∀ c ∈ w.live, c.1 ≠ p → c ∈ w'.live ∧
        ∀ i, 8 * i < c.2 → h'.mem (c.1 + 8 * i) = w.heap.mem (c.1 + 8 * i)) := by
  obtain ⟨A, hr⟩ := reachRep hp h
  obtain ⟨u, hu, rfl, rfl⟩ := live_used hr hlive
  obtain ⟨h', q, call, e1, e2, e3, e4, e5⟩ := realloc_spec hr hp.1 hp.2.1
    (by have := hp.2.2; omega) hn henv hu
  have hok : Ok w (.realloc (u.1 + 8) n mm) := ⟨⟨_, hlive⟩, hn, henv⟩
  have hstep : step pg w (.realloc (u.1 + 8) n mm) = .ok
      { heap := h',
        live := if q = 0 then w.live else (q, n) :: w.live.filter (fun b => b.1 ≠ u.1 + 8),
        regions := addRegion call w.regions } := by
    unfold step
    simp only
    rw [e1]
  refine ⟨h', q, call, _, e1, hstep, Reach.step h hok hstep, rfl, ?_, ?_, ?_⟩
  · intro hq
    refine ⟨e3 hq, ?_⟩
    simp only
    rw [if_pos hq]
  · intro hq
    constructor
    · simp only
      rw [if_neg hq]
      exact List.mem_cons_self ..
    · intro i hi
      have hub : u.blk ∈ A.us.map Used.blk := List.mem_map_of_mem hu
      have hs := hr.inv.sizes _ (List.mem_append_right _ hub)
      have hen := hr.enough u hu
      simp only [Used.blk] at hs
      have hw := hr.inv.word (List.mem_append_right _ hub) (x := u.1 + 8 + 8 * i)
        (by omega) (by simp only [Used.blk]; omega) (by simp only [Used.blk]; omega)
      obtain ⟨v, hv⟩ := Option.ne_none_iff_exists'.mp hw
      exact ⟨v, hv, (e4 hq i (by omega) (by omega)).trans hv⟩
  · intro c hc hcp
    constructor
    · simp only
      by_cases hq : q = 0
      · rw [if_pos hq]; exact hc
      · rw [if_neg hq]
        exact List.mem_cons_of_mem _ (List.mem_filter.mpr ⟨hc, by simpa using hcp⟩)
    · intro i hi
      obtain ⟨v, hv, f1, f2⟩ := live_used hr (p := c.1) (n := c.2) hc
      have hen := hr.enough v hv
      exact e5 v hv (by omega) _ (by omega) (by omega)

example : ∃ w, Reach 4096 w ∧ (4128, 100) ∈ w.live := by
  obtain ⟨w, h1, h2, _⟩ := sample_heap
  exact ⟨w, h1, by rw [h2]; exact List.mem_cons_self ..⟩

/-- C35: `gotcha_malloc` and `gotcha_free` do not change the contents of live blocks (other than the
one that is freed). -/
theorem C35_others_kept {pg : Nat} (hp : PageSize pg) {w w' : World} (h : Reach pg w) {op : Op}
    (hok : Ok w op) (hs : step pg w op = .ok w') {b : Nat × Nat} (hb : b ∈ w.live) (hb' : b ∈ w'.live)
    (hop : ∀ i v, op ≠ .write b.1 i v) {i : Nat} (hi : 8 * i < b.2) :
    w'.heap.mem (b.1 + 8 * i) = w.heap.mem (b.1 + 8 * i) := by
  obtain ⟨A, hr⟩ := reachRep hp h
  obtain ⟨v, hv, f1, f2⟩ := live_used hr (p := b.1) (n := b.2) hb
  have hen := hr.enough v hv
  have hinj := used_inj hr.inv
  have hpw := hr.inv.pairwise
  rw [List.pairwise_append] at hpw
  cases op with
  | malloc n mm =>
    have ha := alloc_spec hr hp.1 hp.2.1 (by have := hp.2.2; omega) hok.1 hok.2
    unfold step at hs
    simp only at hs
    cases hal : A.alloc pg n mm with
    | none =>
      rw [hal] at ha
      simp only at ha
      rw [ha] at hs
      rw [← Except.ok.inj hs]
    | some t =>
      rw [hal] at ha
      simp only at ha
      obtain ⟨h1, call, u, m1, _, _, _, _, _, m7⟩ := ha
      rw [m1] at hs
      rw [← Except.ok.inj hs]
      exact m7 v hv _ (by omega) (by omega)
  | free p =>
    obtain ⟨n, hp'⟩ := hok
    obtain ⟨u, hu, g1, g2⟩ := live_used hr hp'
    obtain ⟨h', k1, _, k3⟩ := free_spec hr hu
    unfold step at hs
    simp only at hs
    rw [g1, k1] at hs
    have e := Except.ok.inj hs
    rw [← e] at hb'
    have hne := (List.mem_filter.mp hb').2
    rw [decide_eq_true_iff] at hne
    rw [← e]
    refine k3 _ ?_
    have hd : Disj v.blk u.blk := pairwise_disj hpw.2.1 (List.mem_map_of_mem hv)
      (List.mem_map_of_mem hu) (by
        intro e
        have := (Prod.mk.inj e).1
        omega)
    have hsu := hr.inv.sizes _ (List.mem_append_right _ (List.mem_map_of_mem (f := Used.blk) hu))
    unfold Disj Apart at hd
    simp only [Used.blk] at hd hsu
    omega
  | realloc p n mm =>
    obtain ⟨⟨m, hp'⟩, hn, henv⟩ := hok
    obtain ⟨u, hu, g1, g2⟩ := live_used hr hp'
    subst g1
    obtain ⟨h', q, call, k1, k2, k3, k4, k5⟩ := realloc_spec hr hp.1 hp.2.1
      (by have := hp.2.2; omega) hn henv hu
    unfold step at hs
    simp only at hs
    rw [k1] at hs
    have e := Except.ok.inj hs
    rw [← e]
    by_cases hvu : v.1 = u.1
    · have hvu' := used_eq hinj hv hu hvu
      subst hvu'
      by_cases hq : q = 0
      · simp only
        rw [k3 hq]
      · -- the block is still live at the same address: it was resized in place
        rw [← e] at hb'
        simp only at hb'
        rw [if_neg hq] at hb'
        rcases List.mem_cons.mp hb' with hb' | hb'
        · have := k4 hq i (by omega) (by
            have : b.2 = n := by rw [hb']
            omega)
          have hq' : b.1 = q := by rw [hb']
          simp only
          rw [hq', this, ← f1, hq']
        · have := (List.mem_filter.mp hb').2
          rw [decide_eq_true_iff] at this
          exact absurd f1 this
    · exact k5 v hv hvu _ (by omega) (by omega)
  | write p j x =>
    obtain ⟨n, hp', hj⟩ := hok
    obtain ⟨u, hu, g1, g2⟩ := live_used hr hp'
    unfold step at hs
    simp only at hs
    have hne : b.1 ≠ p := by
      intro e
      exact hop j x (by rw [e])
    have hd : Disj v.blk u.blk := pairwise_disj hpw.2.1 (List.mem_map_of_mem hv)
      (List.mem_map_of_mem hu) (by
        intro e
        have := (Prod.mk.inj e).1
        omega)
    have henu := hr.enough u hu
    unfold Disj Apart at hd
    simp only [Used.blk] at hd
    cases hst : store w.heap (p + 8 * j) x with
    | error f => rw [hst] at hs; cases hs
    | ok h1 =>
      rw [hst] at hs
      rw [← Except.ok.inj hs]
      unfold store at hst
      cases hm : w.heap.mem (p + 8 * j) with
      | none => rw [hm] at hst; cases hst
      | some y =>
        rw [hm] at hst
        rw [← Except.ok.inj hst]
        exact upd_ne _ _ (by omega)

example : ∃ w w', Reach 4096 w ∧ Ok w (.malloc 20 fun _ => none) ∧
    step 4096 w (.malloc 20 fun _ => none) = .ok w' ∧ (4128, 100) ∈ w.live ∧ (4128, 100) ∈ w'.live := by
  obtain ⟨w, h1, h2, _⟩ := sample_heap
  have hok : Ok w (.malloc 20 fun _ => none) := ⟨by decide, by intro l a h; cases h⟩
  obtain ⟨w', hs⟩ := C33_no_fault ⟨rfl, by decide, by decide⟩ h1 hok
  have hl : (4128, 100) ∈ w.live := by rw [h2]; exact List.mem_cons_self ..
  refine ⟨w, w', h1, hok, hs, hl, ?_⟩
  unfold step at hs
  simp only at hs
  split at hs
  · cases hs
  · rw [← Except.ok.inj hs]
    simp only
    split
    · exact hl
    · exact List.mem_cons_of_mem _ hl

/-! ## C36 -/

/-- C36: if a free block is large enough, `gotcha_malloc` returns one of the tightest of these and
does not call `mmap`. -/
theorem C36_best_fit {pg : Nat} (hp : PageSize pg) {w : World} (h : Reach pg w) {fl : List Blk}
    (hfl : FreeList w.heap.mem w.heap.free fl) {n : Nat} (hn : n < 2 ^ 63) {mm : Nat → Option Nat}
    (henv : ∀ l a, mm l = some a → Fresh w.regions a l) (hex : ∃ b ∈ fl, n ≤ b.2) :
    ∃ h' c, malloc w.heap pg mm n = .ok (h', c.1 + 8, none) ∧ c ∈ fl ∧ n ≤ c.2 ∧
      ∀ b ∈ fl, n ≤ b.2 → c.2 ≤ b.2 := by
  obtain ⟨A, hr⟩ := reachRep hp h
  have hf := rep_free hr hfl
  subst hf
  obtain ⟨r1, r2, r3, r4, r5⟩ := roundSize_spec hn
  have hround : ∀ b ∈ A.fl, n ≤ b.2 → roundSize n ≤ b.2 := by
    intro b hb hle
    have := hr.inv.sizes b (List.mem_append_left _ hb)
    omega
  have hms := malloc_spec hr.inv hp.1 hp.2.1 (by have := hp.2.2; omega) hn (mm := mm)
    (by rw [← hr.regions]; exact henv)
  have hps := pick_spec (m := roundSize n) (L := A.fl) (best := none) (by intro c e; cases e)
  cases hpk : pick (roundSize n) none A.fl with
  | none =>
    rw [hpk] at hps
    obtain ⟨b, hb, hle⟩ := hex
    have h1 := hps.2 b hb
    have h2 := hround b hb hle
    omega
  | some c =>
    rw [hpk] at hms hps
    obtain ⟨h', e1, _⟩ := hms
    obtain ⟨k1, k2, k3, _⟩ := hps
    refine ⟨h', c, e1, ?_, by omega, fun b hb hle => k3 b hb (hround b hb hle)⟩
    rcases k1 with k1 | k1
    · exact k1
    · cases k1

/-- C36: `mmap` is called only if no free block is large enough, with room for the block and its
header. -/
theorem C36_mmap_last {pg : Nat} (hp : PageSize pg) {w : World} (h : Reach pg w) {fl : List Blk}
    (hfl : FreeList w.heap.mem w.heap.free fl) {n : Nat} (hn : n < 2 ^ 63) {mm : Nat → Option Nat}
    (henv : ∀ l a, mm l = some a → Fresh w.regions a l) (hnone : ∀ b ∈ fl, b.2 < n) :
    ∃ h' p len, malloc w.heap pg mm n = .ok (h', p, some (len, mm len)) ∧ n + 8 ≤ len ∧
      p = (match mm len with | none => 0 | some a => a + 8) := by
  obtain ⟨A, hr⟩ := reachRep hp h
  have hf := rep_free hr hfl
  subst hf
  obtain ⟨r1, r2, r3, r4, r5⟩ := roundSize_spec hn
  have hbl := blockLen_spec r1 r4 hp.1 hp.2.1 (by have := hp.2.2; omega)
  have hms := malloc_spec hr.inv hp.1 hp.2.1 (by have := hp.2.2; omega) hn (mm := mm)
    (by rw [← hr.regions]; exact henv)
  have hps := pick_spec (m := roundSize n) (L := A.fl) (best := none) (by intro c e; cases e)
  cases hpk : pick (roundSize n) none A.fl with
  | some c =>
    rw [hpk] at hps
    obtain ⟨k1, k2, _, _⟩ := hps
    rcases k1 with k1 | k1
    · have := hnone c k1
      omega
    · cases k1
  | none =>
    rw [hpk] at hms
    simp only at hms
    cases hmm : mm (blockLen pg (roundSize n)) with
    | none =>
      rw [hmm] at hms
      refine ⟨w.heap, 0, blockLen pg (roundSize n), ?_, by omega, ?_⟩
      · rw [hmm]; exact hms
      · rw [hmm]
    | some a =>
      rw [hmm] at hms
      obtain ⟨h', e1, _⟩ := hms
      refine ⟨h', a + 8, blockLen pg (roundSize n), ?_, by omega, ?_⟩
      · rw [hmm]; exact e1
      · rw [hmm]

example : ∃ w fl, Reach 4096 w ∧ FreeList w.heap.mem w.heap.free fl ∧ (∃ b ∈ fl, 5 ≤ b.2) ∧
    ∀ b ∈ fl, b.2 < 40000 := by
  obtain ⟨w, h1, _, _, h4⟩ := sample_heap
  exact ⟨w, _, h1, h4, by decide, by decide⟩

/-- The number of bytes asked for: 32 KiB, or for large requests the size and header, rounded up to
words and then to pages. -/
def askFor (pg n : Nat) : Nat :=
  let b := 8 * ((max n 8 + 7) / 8) + 8
  if b ≤ 32768 then 32768 else pg * ((b + pg - 1) / pg)

/-- C36: the exact length of a new area. -/
theorem C36_mmap_length {pg : Nat} (hp : PageSize pg) {w : World} (h : Reach pg w) {fl : List Blk}
    (hfl : FreeList w.heap.mem w.heap.free fl) {n : Nat} (hn : n < 2 ^ 62) {mm : Nat → Option Nat}
    (henv : ∀ l a, mm l = some a → Fresh w.regions a l) (hnone : ∀ b ∈ fl, b.2 < n) :
    ∃ h' p, malloc w.heap pg mm n = .ok (h', p, some (askFor pg n, mm (askFor pg n))) := by
  obtain ⟨A, hr⟩ := reachRep hp h
  have hf := rep_free hr hfl
  subst hf
  have hn' : n < 2 ^ 63 := by omega
  obtain ⟨r1, r2, r3, r4, r5⟩ := roundSize_spec hn'
  have hms := malloc_spec hr.inv hp.1 hp.2.1 (by have := hp.2.2; omega) hn' (mm := mm)
    (by rw [← hr.regions]; exact henv)
  have hps := pick_spec (m := roundSize n) (L := A.fl) (best := none) (by intro c e; cases e)
  have hask : blockLen pg (roundSize n) = askFor pg n := by
    have hrs : roundSize n = 8 * ((max n 8 + 7) / 8) := by
      unfold roundSize wrap
      by_cases h8 : n < 8
      · simp only [if_pos h8]
        rw [Nat.max_eq_right (by omega)]
        rfl
      · simp only [if_neg h8]
        rw [Nat.max_eq_left (by omega)]
        split
        · rw [Nat.mod_eq_of_lt (by omega)]; omega
        · omega
    have hb : roundSize n + 8 < 2 ^ 63 := by
      rw [hrs]
      have : max n 8 < 2 ^ 62 + 1 := by omega
      omega
    unfold blockLen askFor wrap
    rw [Nat.mod_eq_of_lt (show roundSize n + 8 < 2 ^ 64 by omega), ← hrs]
    simp only
    by_cases hbig : roundSize n + 8 > 32768
    · rw [if_pos hbig, if_pos hb, if_neg (show ¬ roundSize n + 8 ≤ 32768 by omega)]
      have hpos := hp.2.1
      have hpl := hp.2.2
      have hmod := Nat.mod_lt (roundSize n + 8) hpos
      have hdm := Nat.div_add_mod (roundSize n + 8) pg
      generalize hq : (roundSize n + 8) / pg = q at hdm
      generalize hd : (roundSize n + 8) % pg = d at hdm hmod ⊢
      generalize roundSize n + 8 = b at *
      by_cases hd0 : d ≠ 0
      · rw [if_pos hd0, Nat.mod_eq_of_lt (by omega)]
        have : (b + pg - 1) / pg = q + 1 := by
          rw [Nat.div_eq_iff hpos, Nat.add_mul, Nat.mul_comm q pg]
          omega
        rw [this, Nat.mul_add]
        omega
      · rw [if_neg hd0]
        have : (b + pg - 1) / pg = q := by
          rw [Nat.div_eq_iff hpos, Nat.mul_comm q pg]
          omega
        rw [this]
        omega
    · rw [if_neg hbig, if_pos (by omega)]
  cases hpk : pick (roundSize n) none A.fl with
  | some c =>
    rw [hpk] at hps
    obtain ⟨k1, k2, _, _⟩ := hps
    rcases k1 with k1 | k1
    · have := hnone c k1
      omega
    · cases k1
  | none =>
    rw [hpk] at hms
    simp only [hask] at hms
    cases hmm : mm (askFor pg n) with
    | none =>
      rw [hmm] at hms
      exact ⟨_, _, hms⟩
    | some a =>
      rw [hmm] at hms
      obtain ⟨h', e1, _⟩ := hms
      exact ⟨h', _, e1⟩

/-- A request of 40000 bytes asks for ten pages, one of 10 bytes for 32 KiB. -/
example : askFor 4096 40000 = 40960 ∧ askFor 4096 10 = 32768 := by decide

/-! ## C37 -/

/-- C37: every size in the last 7 values of `size_t` is rounded to 0. -/
theorem C37_rounds_to_zero {n : Nat} (h1 : 2 ^ 64 - 8 < n) (h2 : n < 2 ^ 64) : roundSize n = 0 := by
  unfold roundSize wrap
  simp only
  rw [if_neg (show ¬ n < 8 by omega), if_pos (by omega)]
  omega

/-- C37 (refutation): for these sizes the first `gotcha_malloc` does not fail: it maps 32768 bytes and
returns a block whose header says 0 bytes, and this very block is the head of the free list. -/
theorem C37_huge_size_accepted {pg n a : Nat} (h1 : 2 ^ 64 - 8 < n) (h2 : n < 2 ^ 64)
    {mm : Nat → Option Nat} (ha : mm 32768 = some a) (hf : Fresh [] a 32768) :
    ∃ h', malloc World.init.heap pg mm n = .ok (h', a + 8, some (32768, some a)) ∧
      h'.mem a = some 0 ∧ h'.free = a + 8 := by
  obtain ⟨f1, f2, f3, _⟩ := hf
  have hmap : ∀ x, a ≤ x → x < a + 32768 → x % 8 = 0 →
      Malloc.mapped World.init.heap.mem a 32768 x = some 0 := by
    intro x g1 g2 g3
    unfold Malloc.mapped
    rw [if_pos ⟨g1, g2, g3⟩]
  unfold Malloc.malloc
  simp only
  rw [C37_rounds_to_zero h1 h2]
  have hfind' : ∀ F, 0 < F → findFit World.init.heap 0 F World.init.heap.free 0 none = .ok none := by
    intro F hF
    obtain ⟨k, rfl⟩ : ∃ k, F = k + 1 := ⟨F - 1, by omega⟩
    rw [findFit]
    rfl
  have hfind := hfind' (2 ^ 64) (by omega)
  rw [hfind]
  simp only
  have hbl : blockLen pg 0 = 32768 := rfl
  rw [hbl, ha]
  simp only
  rw [store_ok (by
    show Malloc.mapped World.init.heap.mem a 32768 a ≠ none
    rw [hmap a (by omega) (by omega) f2]; simp)]
  simp only
  rw [show sub64 32768 8 = 32760 by unfold sub64; omega]
  unfold splitAllocation
  rw [load_some (v := 32760) (upd_self ..)]
  simp only
  rw [show sub64 32760 0 = 32760 by unfold sub64; omega, if_neg (by omega)]
  rw [store_ok (by
    show upd _ a _ a ≠ none
    rw [upd_self]; simp)]
  simp only
  rw [wrap_lt (x := a + 8) (by omega), Nat.add_zero, wrap_lt (x := a + 8) (by omega),
    wrap_lt (x := a + 8 + 8) (by omega)]
  rw [store_ok (by
    show upd (upd _ a _) a _ (a + 8) ≠ none
    rw [upd_ne _ _ (by omega), upd_ne _ _ (by omega), hmap _ (by omega) (by omega) (by omega)]
    simp)]
  simp only
  rw [store_ok (by
    show upd (upd (upd _ a _) a _) (a + 8) _ (a + 8 + 8) ≠ none
    rw [upd_ne _ _ (by omega), upd_ne _ _ (by omega), upd_ne _ _ (by omega),
      hmap _ (by omega) (by omega) (by omega)]
    simp)]
  refine ⟨_, rfl, ?_, rfl⟩
  show upd (upd (upd (upd _ a _) a _) (a + 8) _) (a + 8 + 8) _ a = _
  rw [upd_ne _ _ (by omega), upd_ne _ _ (by omega), upd_self]

example : Fresh [] 4096 32768 ∧ 2 ^ 64 - 8 < 2 ^ 64 - 1 :=
  ⟨⟨by decide, by decide, by decide, by intro r hr; cases hr⟩, by omega⟩

/-- C37 (refutation): `gotcha_malloc(2^64 - 8)` takes a free block of any size above 8, because the
signed difference of the sizes is positive; the returned block stays in the free list. -/
theorem C37_negative_difference {pg : Nat} {h : Heap} {R us : List Blk} {b : Blk}
    (I : Inv h R [b] us) (hb : 8 < b.2) {n : Nat} (hn : n = 2 ^ 64 - 8) {mm : Nat → Option Nat} :
    ∃ h', malloc h pg mm n = .ok (h', b.1 + 8, none) ∧ h'.free = b.1 := by
  have hbm : b ∈ [b] ++ us := List.mem_append_left _ (List.mem_cons_self ..)
  have hbd := I.bounds hbm
  have hs := I.sizes b hbm
  obtain ⟨c1, c2, nx, c3, c4⟩ := I.chain
  have c4' : nx = 0 := c4
  subst c4'
  have hround : roundSize n = n := by
    unfold roundSize
    simp only
    rw [if_neg (show ¬ n < 8 by omega), if_neg (by omega)]
  have hsub : sub64 b.2 n = b.2 + 8 := by
    unfold sub64
    omega
  unfold Malloc.malloc
  simp only
  rw [hround]
  have hfind' : ∀ F, 2 ≤ F → findFit h n F h.free 0 none =
      .ok (some (b.1, 0, b.2 + 8)) := by
    intro F hF
    obtain ⟨k, rfl⟩ : ∃ k, F = k + 1 + 1 := ⟨F - 2, by omega⟩
    rw [findFit, c1, if_neg (by omega), load_some c2]
    simp only
    rw [hsub]
    rw [if_neg (by simp), wrap_lt (by omega), load_some c3]
    simp only
    have ht : (decide (b.2 + 8 < 2 ^ 63) && better (b.2 + 8) none) = true := by
      rw [decide_eq_true (by omega)]
      rfl
    rw [ht, findFit]
    rfl
  have hfind := hfind' (2 ^ 64) (by omega)
  rw [hfind]
  simp only
  rw [wrap_lt (x := b.1 + 8) (by omega), load_some c3]
  simp only
  rw [if_neg (by simp)]
  simp only
  unfold splitAllocation
  rw [load_some (h := { h with free := 0 }) c2]
  simp only
  rw [hsub, if_neg (by omega), store_ok (by
    show h.mem b.1 ≠ none
    rw [c2]; simp)]
  simp only
  have hy : wrap (wrap (b.1 + 8) + n) = b.1 := by
    unfold wrap
    omega
  have hz : sub64 (b.2 + 8) 8 = b.2 := by
    unfold sub64
    omega
  rw [hy, hz, store_ok (by
    show upd h.mem b.1 _ b.1 ≠ none
    rw [upd_self]; simp)]
  simp only
  rw [wrap_lt (x := b.1 + 8) (by omega), store_ok (by
    show upd (upd h.mem b.1 _) b.1 _ (b.1 + 8) ≠ none
    rw [upd_ne _ _ (by omega), upd_ne _ _ (by omega), c3]; simp)]
  exact ⟨_, rfl, rfl⟩

/-- The hypotheses of `C37_negative_difference` hold after a first `gotcha_malloc(10)`. -/
example : ∃ (h : Heap) (R us : List Blk) (b : Blk), Inv h R [b] us ∧ 8 < b.2 := by
  have hp : PageSize 4096 := ⟨rfl, by decide, by decide⟩
  obtain ⟨w1, r1, p1⟩ := reach_step hp (op := .malloc 10 fun l => if l = 32768 then some 4096 else none)
    Reach.init rep_init ⟨by decide, by
      intro l a h
      simp only at h
      split at h
      · cases h
        rename_i hl
        subst hl
        exact ⟨by decide, by decide, by decide, by intro r hr; cases hr⟩
      · cases h⟩
  have e : (Abs.step 4096 ⟨[], [], []⟩
      (.malloc 10 fun l => if l = 32768 then some 4096 else none)).fl = [(4120, 32736)] := by
    decide +kernel
  have hi := p1.inv
  rw [e] at hi
  exact ⟨w1.heap, _, _, (4120, 32736), hi, by decide⟩

/-- C37: what a new area is asked for when `size + header` is `q` bytes below 2^64 and at least 2^63,
`q` not being a multiple of the page size: the remainder is negative, so the length is rounded past
the next page, and the last two pages wrap to 0 and to one page. -/
theorem C37_area {pg n q : Nat} (hp : PageSize pg) (hn : n + 8 + q = 2 ^ 64) (hq0 : 0 < q) 
    (hq : q ≤ 2 ^ 63) (hr : q % pg ≠ 0) :
    blockLen pg n =
      if q < pg then pg else if q < 2 * pg then 0 else 2 ^ 64 - (q / pg - 1) * pg := by
  obtain ⟨h0, h1, h2⟩ := hp
  have hpos : 0 < pg := by omega
  have hdm := Nat.div_add_mod q pg
  have hlt := Nat.mod_lt q hpos
  unfold blockLen wrap
  simp only
  rw [show (n + 8) % 2 ^ 64 = n + 8 by omega, if_pos (by omega), if_neg (by omega),
    show 2 ^ 64 - (n + 8) = q by omega, if_pos hr]
  generalize hd : q % pg = r at *
  by_cases c1 : q < pg
  · rw [if_pos c1]
    rw [Nat.mod_eq_of_lt c1] at hd
    omega
  · rw [if_neg c1]
    by_cases c2 : q < 2 * pg
    · rw [if_pos c2]
      have : q / pg = 1 := by rw [Nat.div_eq_iff hpos]; omega
      rw [this] at hdm
      omega
    · rw [if_neg c2]
      have hk : 2 ≤ q / pg := by rw [Nat.le_div_iff_mul_le hpos]; exact Nat.not_lt.1 c2
      obtain ⟨k, hk'⟩ : ∃ k, q / pg = k + 1 + 1 := ⟨q / pg - 2, by omega⟩
      rw [hk', Nat.mul_succ, Nat.mul_succ] at hdm
      rw [hk', Nat.add_sub_cancel, Nat.add_mul, Nat.mul_comm k pg]
      generalize pg * k = m at *
      omega

/-- C37 (refutation): a request within a page of the largest `size_t` gets an area of a single page,
and `split_allocation` writes a header below that area. -/
theorem C37_writes_before_area {pg n m a : Nat} (hp : PageSize pg)
    (hn : n + 8 + 8 * m = 2 ^ 64) (h1 : 1 ≤ m) (h2 : 8 * m < pg)
    {mm : Nat → Option Nat} (ha : mm pg = some a) (hf : Fresh [] a pg) :
    malloc World.init.heap pg mm n = .error .outOfBounds := by
  have hp' := hp
  obtain ⟨p0, p1, p2⟩ := hp'
  obtain ⟨f1, f2, f3, _⟩ := hf
  have hround : roundSize n = n := by
    unfold roundSize
    simp only
    rw [if_neg (show ¬ n < 8 by omega), if_neg (by omega)]
  have hfind' : ∀ F s, 0 < F → findFit World.init.heap s F World.init.heap.free 0 none = .ok none := by
    intro F s hF
    obtain ⟨k, rfl⟩ : ∃ k, F = k + 1 := ⟨F - 1, by omega⟩
    rw [findFit]
    rfl
  have hbl := C37_area hp hn (by omega) (by omega) (by rw [Nat.mod_eq_of_lt h2]; omega)
  rw [if_pos h2] at hbl
  unfold Malloc.malloc
  simp only
  rw [hround]
  have hfind := hfind' (2 ^ 64) n (by omega)
  rw [hfind]
  simp only
  rw [hbl, ha]
  simp only
  rw [store_ok (by
    show Malloc.mapped World.init.heap.mem a pg a ≠ none
    unfold Malloc.mapped
    rw [if_pos ⟨by omega, by omega, f2⟩]; simp)]
  simp only
  have hs1 : sub64 pg 8 = pg - 8 := by unfold sub64; omega
  rw [hs1]
  have hs2 : sub64 (pg - 8) n = pg + 8 * m := by unfold sub64; omega
  generalize pg - 8 = z at hs2 ⊢
  unfold splitAllocation
  rw [load_some (v := z) (upd_self ..)]
  simp only
  rw [hs2, if_neg (show ¬ pg + 8 * m ≤ 16 by omega)]
  rw [store_ok (by
    show upd _ a _ a ≠ none
    rw [upd_self]; simp)]
  simp only
  have hout : wrap (wrap (a + 8) + n) < a ∨ a + pg ≤ wrap (wrap (a + 8) + n) := by
    unfold wrap
    omega
  generalize wrap (wrap (a + 8) + n) = y at hout ⊢
  have hnone : upd (upd (Malloc.mapped World.init.heap.mem a pg) a (some z)) a
      (some n) y = none := by
    rw [upd_ne _ _ (by omega), upd_ne _ _ (by omega)]
    unfold Malloc.mapped
    rw [if_neg (by omega)]
    rfl
  unfold store
  simp only [hnone]

/-- The hypotheses hold for `gotcha_malloc(2^64 - 16)` with pages of 4096 bytes. -/
example : PageSize 4096 ∧ Fresh [] 8192 4096 ∧ (2 ^ 64 - 16) + 8 + 8 * 1 = 2 ^ 64 ∧ 8 * 1 < 4096 :=
  ⟨⟨rfl, by decide, by decide⟩, ⟨by decide, by decide, by decide, by intro r hr; cases hr⟩, by decide,
    by decide⟩

/-! ## C38 -/

theorem rep_run {pg : Nat} (hp : PageSize pg) : ∀ (ops : List Op) {w1 w2 : World} {A : Abs},
    Rep w1 A → Rep w2 A → OkRun pg w1 ops → ∃ v1 v2 B, run pg w1 ops = .ok v1 ∧
      run pg w2 ops = .ok v2 ∧ Rep v1 B ∧ Rep v2 B
  | [], w1, w2, A, h1, h2, _ => ⟨w1, w2, A, rfl, rfl, h1, h2⟩
  | op :: ops, w1, w2, A, h1, h2, hok => by
    have hok2 : Ok w2 op := by
      have hl : w2.live = w1.live := h2.live.trans h1.live.symm
      have hg : w2.regions = w1.regions := h2.regions.trans h1.regions.symm
      have := hok.1
      cases op <;> simp only [Ok, hl, hg] at this ⊢ <;> exact this
    have h32 : pg < 2 ^ 32 := by have := hp.2.2; omega
    obtain ⟨v1, e1, r1⟩ := step_spec h1 hp.1 hp.2.1 h32 hok.1
    obtain ⟨v2, e2, r2⟩ := step_spec h2 hp.1 hp.2.1 h32 hok2
    obtain ⟨x1, x2, B, g1, g2, g3, g4⟩ := rep_run hp ops r1 r2 (hok.2 v1 e1)
    refine ⟨x1, x2, B, ?_, ?_, g3, g4⟩
    · rw [run, e1]; exact g1
    · rw [run, e2]; exact g2

/-- C38: after any write into live blocks, every further sequence of operations returns the same
pointers, maps the same memory and leaves the same free list as without the write. -/
theorem C38_writes_harmless {pg : Nat} (hp : PageSize pg) {w w' : World} (h : Reach pg w) {p i v : Nat}
    (hok : Ok w (.write p i v)) (hs : step pg w (.write p i v) = .ok w') {ops : List Op}
    (hops : OkRun pg w ops) :
    ∃ w1 w2 fl, run pg w ops = .ok w1 ∧ run pg w' ops = .ok w2 ∧ w1.live = w2.live ∧
      w1.regions = w2.regions ∧ FreeList w1.heap.mem w1.heap.free fl ∧
      FreeList w2.heap.mem w2.heap.free fl := by
  obtain ⟨A, hr⟩ := reachRep hp h
  obtain ⟨x, e1, e2⟩ := step_spec hr hp.1 hp.2.1 (by have := hp.2.2; omega) hok
  rw [hs] at e1
  rw [← Except.ok.inj e1] at e2
  obtain ⟨w1, w2, B, g1, g2, g3, g4⟩ := rep_run hp ops hr e2 hops
  exact ⟨w1, w2, B.fl, g1, g2, g3.live.trans g4.live.symm, g3.regions.trans g4.regions.symm,
    g3.inv.chain, g4.inv.chain⟩

/-- C38: the write itself changes no header and no word of the free list. -/
theorem C38_headers_kept {pg : Nat} (hp : PageSize pg) {w w' : World} (h : Reach pg w) {p i v : Nat}
    (hok : Ok w (.write p i v)) (hs : step pg w (.write p i v) = .ok w') :
    (∀ b ∈ w.live, w'.heap.mem (b.1 - 8) = w.heap.mem (b.1 - 8)) ∧ w'.heap.free = w.heap.free ∧
    ∀ fl, FreeList w.heap.mem w.heap.free fl → ∀ f ∈ fl,
      w'.heap.mem f.1 = w.heap.mem f.1 ∧ w'.heap.mem (f.1 + 8) = w.heap.mem (f.1 + 8) := by
  obtain ⟨A, hr⟩ := reachRep hp h
  obtain ⟨x, e1, e2⟩ := step_spec hr hp.1 hp.2.1 (by have := hp.2.2; omega) hok
  rw [hs] at e1
  rw [← Except.ok.inj e1] at e2
  have hA : A.step pg (.write p i v) = A := rfl
  rw [hA] at e2
  refine ⟨?_, ?_, ?_⟩
  · intro b hb
    obtain ⟨u, hu, f1, _⟩ := live_used hr (p := b.1) (n := b.2) hb
    have h1 := hr.inv.hdr _ (List.mem_map_of_mem hu)
    have h2 := e2.inv.hdr _ (List.mem_map_of_mem hu)
    rw [f1, Nat.add_sub_cancel]
    exact h2.trans h1.symm
  · have h1 := hs
    unfold step at h1
    simp only at h1
    cases hst : store w.heap (p + 8 * i) v with
    | error f => rw [hst] at h1; cases h1
    | ok h2 =>
      rw [hst] at h1
      rw [← Except.ok.inj h1]
      unfold store at hst
      cases hm : w.heap.mem (p + 8 * i) with
      | none => rw [hm] at hst; cases hst
      | some y =>
        rw [hm] at hst
        rw [← Except.ok.inj hst]
  · intro fl hfl f hf
    have := rep_free hr hfl
    subst this
    have key : ∀ {L : List Blk} {c c' : Nat}, FreeList w.heap.mem c L → FreeList w'.heap.mem c' L →
        c = c' ∧ ∀ f ∈ L, w'.heap.mem f.1 = w.heap.mem f.1 ∧
          w'.heap.mem (f.1 + 8) = w.heap.mem (f.1 + 8) := by
      intro L
      induction L with
      | nil => intro c c' h1 h2; exact ⟨Eq.trans h1 (Eq.symm h2), by intro f hf; cases hf⟩
      | cons b L ih =>
        intro c c' ⟨a1, a2, n, a3, a4⟩ ⟨b1, b2, m, b3, b4⟩
        obtain ⟨k1, k2⟩ := ih a4 b4
        refine ⟨a1.trans b1.symm, ?_⟩
        intro f hf
        rcases List.mem_cons.mp hf with rfl | hf
        · exact ⟨b2.trans a2.symm, by rw [b3, a3, k1]⟩
        · exact k2 f hf
    exact (key hr.inv.chain e2.inv.chain).2 f hf

example : ∃ w, Reach 4096 w ∧ Ok w (.write 4128 12 (2 ^ 64 - 1)) ∧
    OkRun 4096 w [.free 4128, .malloc 20 (fun _ => none)] := by
  obtain ⟨w, h1, h2, _⟩ := sample_heap
  refine ⟨w, h1, ⟨100, by rw [h2]; exact List.mem_cons_self .., by decide⟩,
    ⟨100, by rw [h2]; exact List.mem_cons_self ..⟩, ?_⟩
  intro w' _
  exact ⟨⟨by decide, by intro l a h; cases h⟩, fun _ _ => trivial⟩

end Gotcha.Props
