import Verif.Proof.MallocFit
/-
Correct programs that use the allocator: every operation refines a step on lists of blocks.
-/
namespace Gotcha.Malloc
open Gotcha Gotcha.Spec.Malloc

/-! ### gotcha_realloc -/

theorem copyWords_spec {R fl us : List Blk} {b c : Blk} (hb : b ∈ us) (hc : c ∈ us)
    (hd : Disj b c) (hle : b.2 ≤ c.2) : ∀ (k i : Nat) (h : Heap), Inv h R fl us →
    8 * (i + k) ≤ b.2 →
    ∃ h', copyWords h (c.1 + 8) (b.1 + 8) k i = .ok h' ∧ Inv h' R fl us ∧
      (∀ j, i ≤ j → j < i + k → h'.mem (c.1 + 8 + 8 * j) = h.mem (b.1 + 8 + 8 * j)) ∧
      (∀ x, x < c.1 + 8 + 8 * i ∨ c.1 + 8 + 8 * (i + k) ≤ x → h'.mem x = h.mem x)
  | 0, i, h, I, _ => ⟨h, rfl, I, fun j h1 h2 => by omega, fun _ _ => rfl⟩
  | k + 1, i, h, I, hk => by
    have hbb := I.bounds (List.mem_append_right fl hb)
    have hcb := I.bounds (List.mem_append_right fl hc)
    have hbs := I.sizes b (List.mem_append_right fl hb)
    have hcs := I.sizes c (List.mem_append_right fl hc)
    have hsrc := I.word (List.mem_append_right fl hb) (x := b.1 + 8 + 8 * i) (by omega) (by omega)
      (by omega)
    obtain ⟨v, hv⟩ := Option.ne_none_iff_exists'.mp hsrc
    obtain ⟨w1, w2⟩ := I.write hc (x := c.1 + 8 + 8 * i) (v := v) (by omega) (by omega) (by omega)
    obtain ⟨h', g1, g2, g3, g4⟩ := copyWords_spec hb hc hd hle k (i + 1) _ w2 (by omega)
    unfold Disj Apart at hd
    refine ⟨h', ?_, g2, ?_, ?_⟩
    · rw [copyWords, wrap_lt (by omega), load_some hv]
      simp only
      rw [wrap_lt (by omega), w1]
      exact g1
    · intro j h1 h2
      by_cases hj : j = i
      · subst hj
        rw [g4 _ (by omega)]
        show upd h.mem _ _ _ = _
        rw [upd_self, hv]
      · rw [g3 j (by omega) (by omega)]
        exact upd_ne _ _ (by omega)
    · intro x hx
      rw [g4 x (by omega)]
      exact upd_ne _ _ (by omega)

/-! ### The abstract allocator -/

/-- A used block: address of the header, size, requested size. -/
abbrev Used := Nat × Nat × Nat

/-- Regions, free blocks in list order, and used blocks. -/
structure Abs where
  R : List Blk
  fl : List Blk
  us : List Used

/-- Address and size of a used block. -/
def Used.blk (u : Used) : Blk := (u.1, u.2.1)

/-- What the program knows of a used block: pointer and requested size. -/
def Used.user (u : Used) : Nat × Nat := (u.1 + 8, u.2.2)

/-- Abstract allocation; `none` when `mmap` fails. -/
def Abs.alloc (pg n : Nat) (mm : Nat → Option Nat) (A : Abs) : Option (Abs × Nat) :=
  let m := roundSize n
  match pick m none A.fl with
  | some b => some ({ R := A.R, fl := (cut b m).2 ++ A.fl.erase b,
                      us := ((cut b m).1.1, (cut b m).1.2, n) :: A.us }, b.1 + 8)
  | none =>
    let len := blockLen pg m
    match mm len with
    | none => none
    | some a => some ({ R := (a, len) :: A.R, fl := (cut (a, len - 8) m).2 ++ A.fl,
                        us := ((cut (a, len - 8) m).1.1, (cut (a, len - 8) m).1.2, n) :: A.us },
                      a + 8)

/-- The used blocks without the one at `p`. -/
def drop (p : Nat) (us : List Used) : List Used := us.filter (fun u => u.1 + 8 ≠ p)

/-- One abstract operation. -/
def Abs.step (pg : Nat) (A : Abs) : Op → Abs
  | .malloc n mm =>
    match A.alloc pg n mm with
    | none => A
    | some (A', _) => A'
  | .free p =>
    match A.us.find? (fun u => decide (u.1 + 8 = p)) with
    | none => A
    | some u => { A with fl := u.blk :: A.fl, us := drop p A.us }
  | .realloc p n mm =>
    match A.us.find? (fun u => decide (u.1 + 8 = p)) with
    | none => A
    | some u =>
      if n ≤ u.2.1 then { A with us := (u.1, u.2.1, n) :: drop p A.us }
      else
        match A.alloc pg n mm with
        | none => A
        | some (A', _) => { A' with fl := u.blk :: A'.fl, us := drop p A'.us }
  | .write _ _ _ => A

/-- The concrete state implements the abstract one. -/
structure Rep (w : World) (A : Abs) : Prop where
  inv : Inv w.heap A.R A.fl (A.us.map Used.blk)
  regions : w.regions = A.R
  live : w.live = A.us.map Used.user
  enough : ∀ u ∈ A.us, u.2.2 ≤ u.2.1

theorem rep_init : Rep World.init ⟨[], [], []⟩ where
  inv := {
    cover := ⟨[], Cover.nil, List.Perm.nil⟩
    regsOk := by intro r hr; cases hr
    regsApart := List.Pairwise.nil
    sizes := by intro b hb; cases hb
    hdr := by intro b hb; cases hb
    chain := rfl
    mapped := by
      intro x
      simp [World.init] }
  regions := rfl
  live := rfl
  enough := by intro u hu; cases hu

theorem used_inj {h : Heap} {R fl : List Blk} {us : List Used} (I : Inv h R fl (us.map Used.blk)) :
    us.Pairwise (fun u v => u.1 ≠ v.1) := by
  have := I.pairwise
  rw [List.pairwise_append, List.pairwise_map] at this
  refine this.2.1.imp ?_
  intro u v hd he
  unfold Disj Apart Used.blk at hd
  simp only at hd
  omega

theorem used_eq {us : List Used} (h : us.Pairwise (fun u v => u.1 ≠ v.1)) : ∀ {u v : Used}, u ∈ us →
    v ∈ us → u.1 = v.1 → u = v := by
  induction h with
  | nil => intro u v hu; cases hu
  | cons h1 _ ih =>
    intro u v hu hv e
    rcases List.mem_cons.mp hu with hu' | hu'
    · rcases List.mem_cons.mp hv with hv' | hv'
      · rw [hu', hv']
      · rw [hu'] at e; exact absurd e (h1 v hv')
    · rcases List.mem_cons.mp hv with hv' | hv'
      · rw [hv'] at e; exact absurd e.symm (h1 u hu')
      · exact ih hu' hv' e

theorem drop_perm {us : List Used} (h : us.Pairwise (fun u v => u.1 ≠ v.1)) {u : Used} (hu : u ∈ us) :
    us.Perm (u :: drop (u.1 + 8) us) := by
  obtain ⟨P, Q, e⟩ := List.append_of_mem hu
  subst e
  have hp : ∀ v ∈ P ++ Q, v.1 ≠ u.1 := by
    intro v hv
    have h2 := (List.Perm.pairwise_iff (R := fun u v : Used => u.1 ≠ v.1)
      (fun h => Ne.symm h) List.perm_middle).mp h
    rw [List.pairwise_cons] at h2
    exact Ne.symm (h2.1 v hv)
  have e : drop (u.1 + 8) (P ++ u :: Q) = P ++ Q := by
    unfold drop
    rw [List.filter_append, List.filter_cons_of_neg (by simp)]
    rw [List.filter_eq_self.mpr, List.filter_eq_self.mpr]
    · intro v hv
      have := hp v (List.mem_append_right _ hv)
      simpa using this
    · intro v hv
      have := hp v (List.mem_append_left _ hv)
      simpa using this
  rw [e]
  exact List.perm_middle

theorem drop_live (p : Nat) (us : List Used) :
    (us.map Used.user).filter (fun b => b.1 ≠ p) = (drop p us).map Used.user := by
  rw [List.filter_map]
  rfl

theorem find_used {us : List Used} (h : us.Pairwise (fun u v => u.1 ≠ v.1)) {u : Used} (hu : u ∈ us) :
    us.find? (fun v => decide (v.1 + 8 = u.1 + 8)) = some u := by
  cases hf : us.find? (fun v => decide (v.1 + 8 = u.1 + 8)) with
  | none =>
    rw [List.find?_eq_none] at hf
    exact absurd (hf u hu) (by simp)
  | some v =>
    have h1 := List.mem_of_find?_eq_some hf
    have h2 := List.find?_some hf
    rw [decide_eq_true_iff] at h2
    rw [used_eq h h1 hu (by omega)]

/-- The allocation step of the code and of the abstract allocator. -/
theorem alloc_spec {w : World} {A : Abs} (hr : Rep w A) {pg n : Nat} (hpg : pg % 8 = 0)
    (hpos : 0 < pg) (hpg32 : pg < 2 ^ 32) (hn : n < 2 ^ 63) {mm : Nat → Option Nat}
    (henv : ∀ l a, mm l = some a → Fresh w.regions a l) :
    match A.alloc pg n mm with
    | none => malloc w.heap pg mm n = .ok (w.heap, 0, some (blockLen pg (roundSize n), none))
    | some (A', p) => ∃ h' call u, malloc w.heap pg mm n = .ok (h', p, call) ∧ p ≠ 0 ∧
        Rep ⟨h', (p, n) :: w.live, addRegion call w.regions⟩ A' ∧ A'.us = u :: A.us ∧
        u.1 + 8 = p ∧ u.2.2 = n ∧
        (∀ c ∈ A.us, ∀ x, c.1 ≤ x → x < c.1 + 8 + c.2.1 → h'.mem x = w.heap.mem x) := by
  have hms := malloc_spec hr.inv hpg hpos hpg32 hn (mm := mm) (by rw [← hr.regions]; exact henv)
  obtain ⟨r1, r2, r3, r4, _⟩ := roundSize_spec hn
  have hbl := blockLen_spec r1 r4 hpg hpos hpg32
  have hcut : ∀ b : Blk, roundSize n ≤ b.2 → (cut b (roundSize n)).1.1 = b.1 ∧
      n ≤ (cut b (roundSize n)).1.2 := by
    intro b hb
    unfold cut
    split
    · exact ⟨rfl, r3⟩
    · exact ⟨rfl, by simp only; omega⟩
  have hps := pick_spec (m := roundSize n) (L := A.fl) (best := none) (by intro c e; cases e)
  unfold Abs.alloc
  simp only
  cases hp : pick (roundSize n) none A.fl with
  | some b =>
    rw [hp] at hms hps
    simp only at hms hps ⊢
    obtain ⟨h', e1, e2, e3⟩ := hms
    obtain ⟨c1, c2⟩ := hcut b hps.2.1
    refine ⟨h', none, _, e1, by omega, ?_, rfl, by rw [c1], rfl, ?_⟩
    · exact {
        inv := e2
        regions := hr.regions
        live := by
          show (b.1 + 8, n) :: w.live = _
          rw [List.map_cons, hr.live]
          unfold Used.user
          rw [c1]
        enough := by
          intro u hu
          rcases List.mem_cons.mp hu with rfl | hu
          · exact c2
          · exact hr.enough u hu }
    · intro c hc x h1 h2
      exact e3 c.blk (List.mem_map_of_mem hc) x h1 h2
  | none =>
    rw [hp] at hms
    simp only at hms ⊢
    cases hmm : mm (blockLen pg (roundSize n)) with
    | none => rw [hmm] at hms; exact hms
    | some a =>
      rw [hmm] at hms
      simp only at hms ⊢
      obtain ⟨h', e1, e2, e3⟩ := hms
      obtain ⟨c1, c2⟩ := hcut (a, blockLen pg (roundSize n) - 8) (by simp only; omega)
      refine ⟨h', _, _, e1, by omega, ?_, rfl, by rw [c1], rfl, ?_⟩
      · exact {
          inv := e2
          regions := by
            show (a, blockLen pg (roundSize n)) :: w.regions = _
            rw [hr.regions]
          live := by
            show (a + 8, n) :: w.live = _
            rw [List.map_cons, hr.live]
            unfold Used.user
            rw [c1]
          enough := by
            intro u hu
            rcases List.mem_cons.mp hu with rfl | hu
            · exact c2
            · exact hr.enough u hu }
      · intro c hc x h1 h2
        exact e3 c.blk (List.mem_map_of_mem hc) x h1 h2

theorem live_used {w : World} {A : Abs} (hr : Rep w A) {p n : Nat} (h : (p, n) ∈ w.live) :
    ∃ u ∈ A.us, p = u.1 + 8 ∧ n = u.2.2 := by
  rw [hr.live] at h
  obtain ⟨u, hu, e⟩ := List.mem_map.mp h
  unfold Used.user at e
  obtain ⟨e1, e2⟩ := Prod.mk.inj e
  exact ⟨u, hu, e1.symm, e2.symm⟩

/-- What `gotcha_free` does. -/
theorem free_spec {w : World} {A : Abs} (hr : Rep w A) {u : Used} (hu : u ∈ A.us) :
    ∃ h', free w.heap (u.1 + 8) = .ok h' ∧
      Rep { w with heap := h', live := w.live.filter (fun b => b.1 ≠ u.1 + 8) }
        { A with fl := u.blk :: A.fl, us := drop (u.1 + 8) A.us } ∧
      (∀ x, x ≠ u.1 + 8 → h'.mem x = w.heap.mem x) := by
  have hperm := (drop_perm (used_inj hr.inv) hu).map Used.blk
  rw [List.map_cons] at hperm
  obtain ⟨h', e1, e2, e3⟩ := hr.inv.free hperm
  refine ⟨h', e1, ?_, e3⟩
  exact {
    inv := e2
    regions := hr.regions
    live := by
      show w.live.filter _ = _
      rw [hr.live]
      exact drop_live _ _
    enough := fun v hv => hr.enough v (List.mem_of_mem_filter hv) }

/-- What `gotcha_realloc` does. -/
theorem realloc_spec {w : World} {A : Abs} (hr : Rep w A) {pg n : Nat} (hpg : pg % 8 = 0)
    (hpos : 0 < pg) (hpg32 : pg < 2 ^ 32) (hn : n < 2 ^ 63) {mm : Nat → Option Nat}
    (henv : ∀ l a, mm l = some a → Fresh w.regions a l) {u : Used} (hu : u ∈ A.us) :
    ∃ h' q call, realloc w.heap pg mm (u.1 + 8) n = .ok (h', q, call) ∧
      Rep { heap := h',
            live := if q = 0 then w.live
                    else (q, n) :: w.live.filter (fun b => b.1 ≠ u.1 + 8),
            regions := addRegion call w.regions } (A.step pg (.realloc (u.1 + 8) n mm)) ∧
      (q = 0 → h' = w.heap) ∧
      (q ≠ 0 → ∀ i, 8 * i < u.2.2 → 8 * i < n → h'.mem (q + 8 * i) = w.heap.mem (u.1 + 8 + 8 * i)) ∧
      (∀ c ∈ A.us, c.1 ≠ u.1 → ∀ x, c.1 ≤ x → x < c.1 + 8 + c.2.1 →
        h'.mem x = w.heap.mem x) := by
  have hub : u.blk ∈ A.us.map Used.blk := List.mem_map_of_mem hu
  have hbd := hr.inv.bounds (List.mem_append_right _ hub)
  have hsz := hr.inv.sizes _ (List.mem_append_right _ hub)
  have hh := hr.inv.hdr _ hub
  have hen := hr.enough u hu
  simp only [Used.blk] at hbd hsz hh
  have e1 : sub64 (u.1 + 8) 8 = u.1 := by rw [sub64_le (by omega) (by omega)]; omega
  unfold Malloc.realloc Abs.step
  rw [e1]
  simp only
  rw [find_used (used_inj hr.inv) hu]
  rw [load_some hh]
  simp only
  by_cases hle : n ≤ u.2.1
  · rw [if_pos hle, if_pos hle]
    refine ⟨w.heap, u.1 + 8, none, rfl, ?_, fun _ => rfl, fun _ i _ _ => rfl, fun _ _ _ _ _ _ => rfl⟩
    rw [if_neg (by omega)]
    have hperm := (drop_perm (used_inj hr.inv) hu).map Used.blk
    rw [List.map_cons] at hperm
    have hp2 := List.Perm.append_left A.fl hperm
    exact {
      inv := {
        cover := by
          obtain ⟨B, c1, c2⟩ := hr.inv.cover
          exact ⟨B, c1, hp2.symm.trans c2⟩
        regsOk := hr.inv.regsOk, regsApart := hr.inv.regsApart
        sizes := fun b hb => hr.inv.sizes b (hp2.mem_iff.mpr hb)
        hdr := fun b hb => hr.inv.hdr b (hperm.mem_iff.mpr hb)
        chain := hr.inv.chain, mapped := hr.inv.mapped }
      regions := hr.regions
      live := by
        show _ :: w.live.filter _ = _
        rw [List.map_cons, hr.live, drop_live]
        rfl
      enough := by
        intro v hv
        rcases List.mem_cons.mp hv with rfl | hv
        · exact hle
        · exact hr.enough v (List.mem_of_mem_filter hv) }
  · rw [if_neg hle, if_neg hle]
    have ha := alloc_spec hr hpg hpos hpg32 hn henv
    cases hal : A.alloc pg n mm with
    | none =>
      rw [hal] at ha
      simp only at ha ⊢
      rw [ha]
      exact ⟨_, 0, _, rfl, hr, fun _ => rfl, fun h => absurd rfl h, fun _ _ _ _ _ _ => rfl⟩
    | some t =>
      obtain ⟨A', q⟩ := t
      rw [hal] at ha
      simp only at ha ⊢
      obtain ⟨h1, call, v, m1, m2, m3, m4, m5, m6, m7⟩ := ha
      rw [m1]
      simp only
      rw [if_neg m2]
      have huA' : u ∈ A'.us := by rw [m4]; exact List.mem_cons_of_mem _ hu
      have hvA' : v ∈ A'.us := by rw [m4]; exact List.mem_cons_self ..
      have hne : v.1 ≠ u.1 := by
        have := used_inj m3.inv
        rw [m4, List.pairwise_cons] at this
        exact this.1 u hu
      have hd : Disj u.blk v.blk := by
        have := m3.inv.pairwise
        rw [List.pairwise_append] at this
        exact pairwise_disj this.2.1 (List.mem_map_of_mem huA') (List.mem_map_of_mem hvA')
          (by intro e; exact hne (Prod.mk.inj e).1.symm)
      have hh1 := m3.inv.hdr _ (List.mem_map_of_mem huA')
      simp only [Used.blk] at hh1
      rw [load_some hh1]
      simp only
      have hvn := m3.enough v hvA'
      obtain ⟨h2, g1, g2, g3, g4⟩ := copyWords_spec (List.mem_map_of_mem (f := Used.blk) huA')
        (List.mem_map_of_mem hvA') hd (by simp only [Used.blk]; omega) (u.2.1 / 8) 0 h1 m3.inv
        (by simp only [Used.blk]; omega)
      simp only [Used.blk] at g1 g3 g4
      rw [m5] at g1 g3 g4
      rw [g1]
      simp only
      have hr2 : Rep ⟨h2, (q, n) :: w.live, addRegion call w.regions⟩ A' :=
        { inv := g2, regions := m3.regions, live := m3.live, enough := m3.enough }
      obtain ⟨h3, f1, f2, f3⟩ := free_spec hr2 huA'
      simp only at f1 f3
      rw [f1]
      refine ⟨h3, q, call, rfl, ?_, fun h => absurd h m2, ?_, ?_⟩
      · rw [if_neg m2]
        have : ((q, n) :: w.live).filter (fun b => b.1 ≠ u.1 + 8) =
            (q, n) :: w.live.filter (fun b => b.1 ≠ u.1 + 8) := by
          rw [List.filter_cons_of_pos]
          simp
          omega
        rw [← this]
        exact f2
      · intro _ i hi _
        have hdd := hd
        unfold Disj Apart Used.blk at hdd
        simp only at hdd
        rw [f3 _ (by omega), g3 i (by omega) (by omega)]
        exact m7 u hu _ (by omega) (by omega)
      · intro c hc hcu x h5 h6
        have hcA' : c ∈ A'.us := by rw [m4]; exact List.mem_cons_of_mem _ hc
        have hpw := m3.inv.pairwise
        rw [List.pairwise_append] at hpw
        have hcv : c.1 ≠ v.1 := by
          have := used_inj m3.inv
          rw [m4, List.pairwise_cons] at this
          exact (this.1 c hc).symm
        have hdv : Disj c.blk v.blk := pairwise_disj hpw.2.1 (List.mem_map_of_mem hcA')
          (List.mem_map_of_mem hvA') (by intro e; exact hcv (Prod.mk.inj e).1)
        have hdu : Disj c.blk u.blk := pairwise_disj hpw.2.1 (List.mem_map_of_mem hcA')
          (List.mem_map_of_mem huA') (by intro e; exact hcu (Prod.mk.inj e).1)
        unfold Disj Apart Used.blk at hdv hdu
        simp only at hdv hdu
        rw [f3 x (by omega), g4 x (by omega)]
        exact m7 c hc x h5 h6

/-- Every operation of a correct program succeeds and refines the abstract step. -/
theorem step_spec {w : World} {A : Abs} (hr : Rep w A) {pg : Nat} (hpg : pg % 8 = 0)
    (hpos : 0 < pg) (hpg32 : pg < 2 ^ 32) {op : Op} (hok : Ok w op) :
    ∃ w', step pg w op = .ok w' ∧ Rep w' (A.step pg op) := by
  cases op with
  | malloc n mm =>
    have ha := alloc_spec hr hpg hpos hpg32 hok.1 hok.2
    unfold step Abs.step
    simp only
    cases hal : A.alloc pg n mm with
    | none =>
      rw [hal] at ha
      simp only at ha ⊢
      rw [ha]
      exact ⟨_, rfl, hr⟩
    | some t =>
      obtain ⟨A', q⟩ := t
      rw [hal] at ha
      simp only at ha ⊢
      obtain ⟨h1, call, v, m1, m2, m3, _⟩ := ha
      rw [m1]
      refine ⟨_, rfl, ?_⟩
      rw [if_neg m2]
      exact m3
  | free p =>
    obtain ⟨n, hp⟩ := hok
    obtain ⟨u, hu, rfl, rfl⟩ := live_used hr hp
    obtain ⟨h', e1, e2, _⟩ := free_spec hr hu
    unfold step Abs.step
    simp only
    rw [find_used (used_inj hr.inv) hu, e1]
    exact ⟨_, rfl, e2⟩
  | realloc p n mm =>
    obtain ⟨⟨m, hp⟩, hn, henv⟩ := hok
    obtain ⟨u, hu, rfl, rfl⟩ := live_used hr hp
    obtain ⟨h', q, call, e1, e2, _⟩ := realloc_spec hr hpg hpos hpg32 hn henv hu
    unfold step
    simp only
    rw [e1]
    exact ⟨_, rfl, e2⟩
  | write p i v =>
    obtain ⟨n, hp, hi⟩ := hok
    obtain ⟨u, hu, rfl, rfl⟩ := live_used hr hp
    have hub : u.blk ∈ A.us.map Used.blk := List.mem_map_of_mem hu
    have hsz := hr.inv.sizes _ (List.mem_append_right _ hub)
    have hen := hr.enough u hu
    simp only [Used.blk] at hsz
    obtain ⟨w1, w2⟩ := hr.inv.write hub (x := u.1 + 8 + 8 * i) (v := v)
      (by simp only [Used.blk]; omega) (by simp only [Used.blk]; omega) (by omega)
    unfold step Abs.step
    simp only
    rw [w1]
    exact ⟨_, rfl, { inv := w2, regions := hr.regions, live := hr.live, enough := hr.enough }⟩

theorem reach_rep {pg : Nat} (hpg : pg % 8 = 0) (hpos : 0 < pg) (hpg32 : pg < 2 ^ 32) {w : World}
    (h : Reach pg w) : ∃ A, Rep w A := by
  induction h with
  | init => exact ⟨_, rep_init⟩
  | step _ hok hs ih =>
    obtain ⟨A, hr⟩ := ih
    obtain ⟨w', e1, e2⟩ := step_spec hr hpg hpos hpg32 hok
    rw [hs] at e1
    rw [Except.ok.inj e1]
    exact ⟨_, e2⟩

end Gotcha.Malloc
