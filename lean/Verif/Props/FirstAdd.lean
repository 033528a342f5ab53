import Verif.Props.Hash
/-
C32: as long as nothing was removed and the table did not grow, the first addition of a key wins.
-/
namespace Gotcha
namespace HashProps
open HTable
variable {K D : Type}

/-- No slot was ever vacated. -/
def NoTomb (t : HTable K D) : Prop := ∀ (i : Nat) (e : Entry K D), t.slots[i]? = some e → e.status ≠ .tombstone

theorem lookupProbe_stable {s1 s2 : List (Entry K D)} (hl : s2.length = s1.length)
    (hk : ∀ (j : Nat) (e : Entry K D), s1[j]? = some e → e.status ≠ .empty →
      ∃ e' : Entry K D, s2[j]? = some e' ∧ e'.status = e.status ∧ e'.hash = e.hash ∧ e'.key = e.key)
    (hv : BitVec 32) (eq : K → Bool) (start : Nat) : ∀ (fuel i j : Nat),
    lookupProbe s1 hv eq start fuel i = .ok (some j) →
    lookupProbe s2 hv eq start fuel i = .ok (some j) := by
  intro fuel
  induction fuel with
  | zero => intro i j h; simp [lookupProbe] at h
  | succ fuel ih =>
    intro i j h
    rw [lookupProbe] at h ⊢
    cases he : s1[i]? with
    | none => rw [he] at h; cases h
    | some e =>
      rw [he] at h
      dsimp only at h
      by_cases h0 : e.status = .empty
      · rw [if_neg (by rw [h0]; simp), if_pos h0] at h
        cases h
      · obtain ⟨e', h1, h2, h3, h4⟩ := hk i e he h0
        rw [h1]
        dsimp only
        rw [h2, h3, h4, hl]
        by_cases hc : e.status = .inuse ∧ e.hash = hv ∧ e.key.any eq = true
        · rw [if_pos hc] at h ⊢; exact h
        · rw [if_neg hc, if_neg h0] at h ⊢
          generalize (if i + 1 = s1.length then 0 else i + 1) = n at h ⊢
          by_cases hs : n = start
          · rw [if_pos hs] at h; cases h
          · rw [if_neg hs] at h ⊢
            exact ih _ _ h

theorem insert_noTomb {t t' : HTable K D} (h : NoTomb t) {k d hv} (e : HTable.insert t k d hv = .ok t') :
    NoTomb t' := by
  have hm : ∀ (l : List (Entry K D)) (i : Nat) (f : Entry K D → Entry K D),
      (∀ e : Entry K D, e.status ≠ .tombstone → (f e).status ≠ .tombstone) →
      (∀ (j : Nat) (e : Entry K D), l[j]? = some e → e.status ≠ .tombstone) →
      ∀ (j : Nat) (e : Entry K D), (l.modify i f)[j]? = some e → e.status ≠ .tombstone := by
    intro l i f hf hl j e he
    rw [getElem?_modify'] at he
    split at he
    · cases hx : l[j]? with
      | none => rw [hx] at he; cases he
      | some x => rw [hx] at he; cases he; exact hf x (hl j x hx)
    · exact hl j e he
  unfold HTable.insert at e
  split at e
  · cases e
  · dsimp only at e
    cases e
    unfold NoTomb linkFront
    dsimp only
    have hfill : ∀ (j : Nat) (e : Entry K D), (if (insertProbe t.slots (home hv t.size) t.size (home hv t.size)).2 = true
        then t.slots.modify (insertProbe t.slots (home hv t.size) t.size (home hv t.size)).1
          (fun e => { e with key := some k, data := some d, hash := hv, status := .inuse })
        else t.slots)[j]? = some e → e.status ≠ .tombstone := by
      split
      · exact hm _ _ _ (fun _ _ => by simp) h
      · exact h
    cases t.head with
    | none => exact hm _ _ _ (fun _ h => h) hfill
    | some a => exact hm _ _ _ (fun _ h => h) (hm _ _ _ (fun _ h => h) hfill)

/-- What the table finds for every key is the first of the additions, and it did not grow. -/
structure First (hash : K → BitVec 32) (cmp : K → K → Bool) (n : Nat) (t : HTable K D)
    (kds : List (K × D)) : Prop where
  good : Good hash t (kds.reverse.map (fun x => (hash x.1, x.1, x.2)))
  size : t.slots.length = n
  fresh : NoTomb t
  found : ∀ k, t.lookup (hash k) (fun s => cmp s k) =
    .ok ((kds.find? (fun x => cmp x.1 k)).map (·.2))

theorem first_add {hash : K → BitVec 32} {cmp : K → K → Bool}
    (hc : ∀ a b, cmp a b = true ↔ a = b) {n : Nat} {t : HTable K D} {kds}
    (h : First hash cmp n t kds) (hn : kds.length ≤ n / 2) (k : K) (d : D) :
    ∃ t', t.addto k d (hash k) = .ok t' ∧ First hash cmp n t' (kds ++ [(k, d)]) := by
  obtain ⟨L, r⟩ := h.good.repr
  have hcnt : t.count = kds.length := by rw [r.count_items]; simp
  have hpos := r.pos
  have hsz := h.size
  obtain ⟨m, hg, hle, hmc⟩ := growSize_spec t.count t.slots.length r.pos
  have hm : m = t.slots.length := by
    unfold growSize at hg
    have : growLoop t.count (2 * t.count) t.slots.length = .ok t.slots.length := by
      cases 2 * t.count with
      | zero => rw [growLoop, if_neg (by omega)]
      | succ x => rw [growLoop, if_neg (by omega)]
    rw [this] at hg; cases hg; rfl
  subst hm
  have hfull : (kds.reverse.map (fun x => (hash x.1, x.1, x.2))).length < t.slots.length := by
    simp only [List.length_map, List.length_reverse]; omega
  obtain ⟨t', i, h1, h2, r', h3⟩ := insert_repr r k d (hash k) hfull
  refine ⟨t', ?_, ?_⟩
  · unfold addto
    simp only [HTable.size, hg, ne_eq, not_true_eq_false, if_false]
    exact h1
  have hitems : (kds ++ [(k, d)]).reverse.map (fun x => (hash x.1, x.1, x.2)) =
      (hash k, k, d) :: kds.reverse.map (fun x => (hash x.1, x.1, x.2)) := by simp
  have hat : ∀ j ∈ L, itemAt t'.slots j = itemAt t.slots j := by
    have := r'.items
    simp only [List.map_cons, List.cons.injEq] at this
    have h5 := this.2.trans r.items.symm
    exact fun j hj => (List.map_inj_left.1 h5) j hj
  refine ⟨⟨⟨i :: L, by rw [hitems]; exact r'⟩, ?_, ?_⟩, h3.trans hsz, insert_noTomb h.fresh h1, ?_⟩
  · intro it hit
    obtain ⟨x, -, rfl⟩ := List.mem_map.1 hit
    rfl
  · rw [r'.count_items]
    simp only [List.length_cons, List.length_map, List.length_reverse]
    omega
  intro k'
  rw [List.find?_append]
  cases hf : kds.find? (fun x => cmp x.1 k') with
  | none =>
    -- not there before: the only candidate is the new one
    have hno : ∀ x ∈ kds, ¬ cmp x.1 k' = true := by simpa using hf
    rcases lookup_repr r' (hash k') (fun s => cmp s k') with ⟨it, g1, g2, g3⟩ | ⟨g1, g2⟩
    · rw [g1]
      rcases List.mem_cons.1 g2 with rfl | g2
      · have : cmp k k' = true := g3.2
        simp [List.find?, this]
      · obtain ⟨x, hx, rfl⟩ := List.mem_map.1 g2
        exact absurd g3.2 (hno x (by simpa using hx))
    · rw [g1]
      have : cmp k k' = false := by
        cases e : cmp k k' with
        | false => rfl
        | true =>
          refine absurd ⟨?_, e⟩ (g2 _ (List.mem_cons_self ..))
          rw [(hc _ _).1 e]
      simp [List.find?, this]
  | some x =>
    have hlk := h.found k'
    rw [hf] at hlk
    simp only [Option.map_some, Option.some_or] at hlk ⊢
    have hsize : t.slots.length ≠ 0 := by omega
    unfold lookup lookupEntry at hlk ⊢
    rw [HTable.size, if_neg hsize] at hlk
    rw [HTable.size, h3, if_neg hsize]
    cases hp : lookupProbe t.slots (hash k') (fun s => cmp s k') (home (hash k') t.slots.length)
        t.slots.length (home (hash k') t.slots.length) with
    | error f => rw [hp] at hlk; cases hlk
    | ok o =>
      cases o with
      | none => rw [hp] at hlk; cases hlk
      | some j =>
        have hcore : ∀ (j : Nat) (e : Entry K D), t.slots[j]? = some e → e.status ≠ .empty →
            ∃ e' : Entry K D, t'.slots[j]? = some e' ∧ e'.status = e.status ∧ e'.hash = e.hash ∧
              e'.key = e.key ∧ e'.data = e.data := by
          intro j e he hne
          have hin : e.status = .inuse := by
            have := h.fresh j e he
            cases hst : e.status with
            | empty => exact absurd hst hne
            | tombstone => exact absurd hst this
            | inuse => rfl
          have hjL := r.cover j e he hin
          obtain ⟨it, -, hi⟩ := r.mem_item hjL
          obtain ⟨e1, a1, a2, a3, a4, a5⟩ := itemAt_inuse hi
          rw [he] at a1; cases a1
          rw [← hat j hjL] at hi
          obtain ⟨e', b1, b2, b3, b4, b5⟩ := itemAt_inuse hi
          exact ⟨e', b1, by rw [b2, hin], by rw [b3, a3], by rw [b4, a4], by rw [b5, a5]⟩
        rw [hp] at hlk
        have hst := lookupProbe_stable h3
          (fun j e he hne => by
            obtain ⟨e', c1, c2, c3, c4, _⟩ := hcore j e he hne
            exact ⟨e', c1, c2, c3, c4⟩) (hash k') (fun s => cmp s k') _ _ _ _ hp
        rw [hst]
        dsimp only at hlk ⊢
        cases he : t.slots[j]? with
        | none => rw [he] at hlk; cases hlk
        | some e =>
          rw [he] at hlk
          dsimp only at hlk
          have hne : e.status ≠ .empty := by
            intro hemp
            rcases lookupEntry_repr r (hash k') (fun s => cmp s k') with
              ⟨i', it, q1, q2, q3, q4, q5⟩ | ⟨q1, q2⟩
            · unfold lookupEntry at q1
              rw [HTable.size, if_neg hsize, hp] at q1
              cases q1
              obtain ⟨e1, a1, a2, _⟩ := itemAt_inuse q3
              rw [he] at a1; cases a1
              rw [hemp] at a2; cases a2
            · unfold lookupEntry at q1
              rw [HTable.size, if_neg hsize, hp] at q1
              cases q1
          obtain ⟨e', c1, c2, c3, c4, c5⟩ := hcore j e he hne
          rw [c1]
          dsimp only
          rw [c5]; exact hlk

theorem first_run {hash : K → BitVec 32} {cmp : K → K → Bool}
    (hc : ∀ a b, cmp a b = true ↔ a = b) {n : Nat} : ∀ (new : List (K × D)) {t : HTable K D} {kds},
    First hash cmp n t kds → kds.length + new.length ≤ n / 2 + 1 →
    ∃ obs t', tableRun hash cmp t (new.map (fun x => Spec.MapOp.add x.1 x.2)) = .ok (obs, t') ∧
      First hash cmp n t' (kds ++ new)
  | [], t, kds, h, _ => ⟨[], t, rfl, by simpa using h⟩
  | x :: new, t, kds, h, hl => by
    simp only [List.length_cons] at hl
    obtain ⟨t1, h1, h2⟩ := first_add hc h (by omega) x.1 x.2
    obtain ⟨obs, t', h3, h4⟩ := first_run hc new h2 (by simp; omega)
    refine ⟨.added :: obs, t', ?_, by simpa using h4⟩
    simp only [List.map_cons, tableRun, h1, h3]

end HashProps
open HTable HashProps

/-- C32.  A table made for `initial` entries into which at most half of that is put, and from which
nothing is removed, finds for every key the data it was first added with. -/
theorem C32_first_addition_wins {K D : Type} (page initial : Nat) (hp : 48 ≤ page)
    (hi : 0 < initial) (hash : K → BitVec 32) (cmp : K → K → Bool)
    (hc : ∀ a b, cmp a b = true ↔ a = b) (kds : List (K × D))
    (hn : kds.length ≤ initial / 2 + 1) :
    ∃ obs t, tableHistory page initial hash cmp (kds.map (fun x => Spec.MapOp.add x.1 x.2)) =
        .ok (obs, t) ∧
      ∀ k, t.lookup (hash k) (fun s => cmp s k) =
        .ok ((kds.find? (fun x => cmp x.1 k)).map (·.2)) := by
  obtain ⟨t0, h0, g0⟩ := create_good (D := D) hash hp hi
  have hsz : initial ≤ t0.slots.length ∧ NoTomb t0 ∧ t0 = blank t0.slots.length := by
    have hpp : page / 48 ≠ 0 := by omega
    unfold create entrySize at h0
    simp only [hpp, if_false] at h0
    cases h0
    refine ⟨?_, ?_, by simp [blank]⟩
    · simp only [blank, List.length_replicate]; split <;> omega
    · intro i e he
      simp only [blank] at he
      rw [List.eq_of_mem_replicate (List.mem_of_getElem? he)]
      simp
  have hf : First hash cmp t0.slots.length t0 ([] : List (K × D)) := by
    refine ⟨g0, rfl, hsz.2.1, fun k => ?_⟩
    obtain ⟨L, r⟩ := g0.repr
    rcases lookup_repr r (hash k) (fun s => cmp s k) with ⟨it, -, g2, -⟩ | ⟨g1, -⟩
    · cases g2
    · exact g1
  obtain ⟨obs, t, h1, h2⟩ := first_run hc kds hf (by simp; omega)
  exact ⟨obs, t, by simp [tableHistory, h0, h1], by simpa using h2.found⟩

/-- Two additions of the same key among others with the same hash. -/
example : ∃ obs t, tableHistory 4096 85 (fun _ : Nat => 7#32) (· == ·)
      ([(1, 10), (2, 20), (1, 30), (3, 40)].map (fun x => Spec.MapOp.add x.1 x.2)) = .ok (obs, t) ∧
    t.lookup 7 (fun s => s == 1) = .ok (some 10) := by
  obtain ⟨obs, t, h1, h2⟩ := C32_first_addition_wins 4096 85 (by omega) (by omega)
    (fun _ : Nat => 7#32) (· == ·) (fun a b => beq_iff_eq)
    [(1, 10), (2, 20), (1, 30), (3, 40)] (by decide)
  exact ⟨obs, t, h1, h2 1⟩

end Gotcha
