import Verif.Proof.Hash
/-
A hash table without repeated keys as a partial map, and iteration over it.
-/
namespace Gotcha
open HTable
variable {K D : Type}

/-- The table stores exactly the associations of `m`, hashed by `hash`. -/
structure TabRepr (hash : K → BitVec 32) (t : HTable K D) (m : K → Option D) (L : List Nat)
    (items : List (Item K D)) : Prop where
  repr : Repr t L items
  hashed : ∀ it ∈ items, it.1 = hash it.2.1
  keys : (items.map (·.2.1)).Nodup
  maps : ∀ k d, m k = some d ↔ (hash k, k, d) ∈ items

def TabMap (hash : K → BitVec 32) (t : HTable K D) (m : K → Option D) : Prop :=
  ∃ L items, TabRepr hash t m L items

theorem TabRepr.mem {hash : K → BitVec 32} {t : HTable K D} {m L items}
    (h : TabRepr hash t m L items) {it : Item K D} (hi : it ∈ items) : m it.2.1 = some it.2.2 := by
  rw [h.maps, ← h.hashed it hi]; exact hi

theorem create_tab (hash : K → BitVec 32) {page initial : Nat} (hp : 48 ≤ page)
    (hi : 0 < initial) :
    ∃ t : HTable K D, create page initial = .ok t ∧ TabMap hash t (fun _ => none) := by
  have hpp : page / 48 ≠ 0 := by omega
  unfold create entrySize
  simp only [hpp, if_false]
  refine ⟨_, rfl, [], [], blank_repr ?_, by simp, by simp, by simp⟩
  split <;> omega

theorem lookup_tab {hash : K → BitVec 32} {t : HTable K D} {m} (h : TabMap hash t m) {k : K}
    {eq : K → Bool} (he : ∀ k', (m k').isSome → ((hash k' = hash k ∧ eq k' = true) ↔ k' = k)) :
    t.lookup (hash k) eq = .ok (m k) := by
  obtain ⟨L, items, r⟩ := h
  rcases lookup_repr r.repr (hash k) eq with ⟨it, h1, h2, h3⟩ | ⟨h1, h2⟩
  · have hm := r.mem h2
    have hk : it.2.1 = k := (he _ (by rw [hm]; rfl)).1 ⟨by rw [← r.hashed it h2]; exact h3.1, h3.2⟩
    rw [h1, ← hk, hm]
  · rw [h1]
    cases hm : m k with
    | none => rfl
    | some d =>
      exfalso
      have hi := (r.maps k d).1 hm
      have := (he k (by rw [hm]; rfl)).2 rfl
      exact h2 _ hi ⟨rfl, this.2⟩

theorem addto_tab [DecidableEq K] {hash : K → BitVec 32} {t : HTable K D} {m}
    (h : TabMap hash t m) (k : K) (d : D) (hk : m k = none) :
    ∃ t', t.addto k d (hash k) = .ok t' ∧ TabMap hash t' (upd m k (some d)) := by
  obtain ⟨L, items, r⟩ := h
  obtain ⟨t', L', items', h1, r', hp, -, -⟩ := addto_repr r.repr k d (hash k)
  refine ⟨t', h1, L', _, r', ?_, ?_, ?_⟩
  · intro it hit
    rcases List.mem_cons.1 hit with rfl | h
    · rfl
    · exact r.hashed it (hp.mem_iff.1 h)
  · rw [List.map_cons, List.nodup_cons]
    refine ⟨?_, (hp.map _).nodup_iff.2 r.keys⟩
    intro hc
    obtain ⟨it, hit, he⟩ := List.mem_map.1 hc
    have := r.mem (hp.mem_iff.1 hit)
    simp only at he
    rw [he, hk] at this
    cases this
  · intro k' d'
    simp only [List.mem_cons, Prod.mk.injEq]
    rw [hp.mem_iff, ← r.maps]
    by_cases hkk : k' = k
    · subst hkk
      simp only [upd_self, Option.some.injEq, hk, reduceCtorEq, or_false, true_and]
      exact eq_comm
    · simp [upd_ne _ _ hkk, hkk]

theorem removefrom_tab [DecidableEq K] {hash : K → BitVec 32} {t : HTable K D} {m}
    (h : TabMap hash t m) {k : K} {eq : K → Bool}
    (he : ∀ k', (m k').isSome → ((hash k' = hash k ∧ eq k' = true) ↔ k' = k)) :
    ∃ t', t.removefrom (hash k) eq = .ok (t', (m k).isSome) ∧
      TabMap hash t' (upd m k none) := by
  obtain ⟨L, items, r⟩ := h
  rcases removefrom_repr r.repr (hash k) eq with
    ⟨i, it, t', A, B, IA, IB, h1, h2, h3, h4, h5, h6, -⟩ | ⟨h1, h2⟩
  · have hit : it ∈ items := by rw [h3]; simp
    have hm := r.mem hit
    have hk : it.2.1 = k := (he _ (by rw [hm]; rfl)).1 ⟨by rw [← r.hashed it hit]; exact h5.1, h5.2⟩
    have hkeys := r.keys
    rw [h3] at hkeys
    simp only [List.map_append, List.map_cons] at hkeys
    have hk2 := (List.nodup_middle.1 hkeys)
    rw [List.nodup_cons] at hk2
    refine ⟨t', by rw [h1, ← hk, hm]; rfl, _, _, h6, ?_, ?_, ?_⟩
    · intro x hx; apply r.hashed; rw [h3]; simp at hx ⊢; tauto
    · simpa using hk2.2
    · intro k' d'
      by_cases hkk : k' = k
      · subst hkk
        simp only [upd_self, reduceCtorEq, false_iff]
        intro hc
        apply hk2.1
        rw [hk, ← List.map_append]
        exact List.mem_map.2 ⟨_, hc, rfl⟩
      · rw [upd_ne _ _ hkk, r.maps, h3]
        simp only [List.mem_append, List.mem_cons]
        constructor
        · rintro (h | h | h)
          · exact .inl h
          · exfalso; apply hkk; rw [← hk, ← h]
          · exact .inr h
        · rintro (h | h)
          · exact .inl h
          · exact .inr (.inr h)
  · have hm : m k = none := by
      cases hm : m k with
      | none => rfl
      | some d =>
        exfalso
        have := (he k (by rw [hm]; rfl)).2 rfl
        exact h2 _ ((r.maps k d).1 hm) ⟨rfl, this.2⟩
    refine ⟨t, by rw [h1, hm]; rfl, L, items, r.repr, r.hashed, r.keys, ?_⟩
    intro k' d'
    rw [← r.maps]
    by_cases hkk : k' = k
    · subst hkk; simp [hm]
    · rw [upd_ne _ _ hkk]

/-- Iteration over a table whose callback either leaves the table alone or removes the entry being
visited: every association is visited exactly once. -/
theorem foreach_tab [DecidableEq K] {σ : Type} {hash : K → BitVec 32} (getT : σ → HTable K D)
    (cb : Option K → Option D → σ → Except Fault (σ × Bool)) (eq : K → K → Bool)
    (heq : ∀ a b, eq a b = true ↔ b = a)
    (I : σ → (K → Option D) → List (K × D) → Prop)
    (hstep : ∀ s m k d rest, TabMap hash (getT s) m → I s m ((k, d) :: rest) → m k = some d →
      ∃ s', cb (some k) (some d) s = .ok (s', false) ∧
        ((getT s' = getT s ∧ I s' m rest) ∨
         (∃ b, (getT s).removefrom (hash k) (eq k) = .ok (getT s', b) ∧
            I s' (upd m k none) rest)))
    {s : σ} {m : K → Option D} (ht : TabMap hash (getT s) m)
    (hI : ∀ its : List (K × D), (its.map (·.1)).Nodup → (∀ k d, (k, d) ∈ its ↔ m k = some d) →
      I s m its) :
    ∃ s' m', foreachEntry getT cb (getT s).slots.length (getT s).head s = .ok s' ∧
      TabMap hash (getT s') m' ∧ I s' m' [] := by
  let J : σ → Option Nat → List (Item K D) → Prop := fun s h its =>
    ∃ A B IA m, TabRepr hash (getT s) m (A ++ B) (IA ++ its) ∧ IA.length = A.length ∧
      h = B.head? ∧ I s m (its.map (·.2))
  have key := foreach_inv getT cb J
    (by
      rintro s h ⟨A, B, IA, m, hr, hl, hh, -⟩
      have h1 := hr.repr.length
      simp only [List.length_append, List.append_nil] at h1
      have : B = [] := List.eq_nil_of_length_eq_zero (by omega)
      rw [hh, this]; rfl)
    (by
      rintro s h it its ⟨A, B, IA, m, hr, hl, hh, hi⟩
      have h1 := hr.repr.length
      simp only [List.length_append, List.length_cons] at h1
      obtain ⟨i, B, rfl⟩ : ∃ i B', B = i :: B' := by
        cases B with
        | nil => simp at h1; omega
        | cons i B => exact ⟨i, B, rfl⟩
      obtain ⟨IA', it', IB', q1, q2, q3, q4⟩ := mem_split_map hr.repr.items
      have hlen' : IA'.length = A.length := by
        have := congrArg List.length q2; simpa using this.symm
      obtain ⟨rfl, hq⟩ := List.append_inj q1 (by omega)
      obtain ⟨rfl, rfl⟩ := List.cons.inj hq
      obtain ⟨e, he, hst, hh1, hk, hd⟩ := itemAt_inuse q3
      have hmid := linked_mid he hr.repr.linked
      have hmem : it ∈ IA ++ it :: its := by simp
      have hmk := hr.mem hmem
      have hgt : TabMap hash (getT s) m := ⟨_, _, hr⟩
      obtain ⟨s', hcb, hcase⟩ := hstep s m it.2.1 it.2.2 (its.map (fun x : Item K D => x.2)) hgt hi hmk
      rcases hcase with ⟨hsame, hi'⟩ | ⟨b, hrem, hi'⟩
      · refine ⟨i, e, s', e, by rw [hh]; rfl, he, hk, hd, hcb, by rw [hsame]; exact he,
          A ++ [i], B, IA ++ [it], m, ?_, by simp [hl], linked_head hmid.2, hi'⟩
        rw [hsame]
        simpa using hr
      · have hmatch : Matches (hash it.2.1) (eq it.2.1) it :=
          ⟨hr.hashed it hmem, (heq _ _).2 rfl⟩
        rcases removefrom_repr hr.repr (hash it.2.1) (eq it.2.1) with
          ⟨j, jt, t', A', B', JA, JB, r1, r2, r3, r4, r5, r6, r7, r8, e1, e2, r9, r10, r11⟩ | ⟨_, r2⟩
        · have hnd := hr.keys
          have hjt : it.2.1 = jt.2.1 := by
            have := (heq it.2.1 jt.2.1).1 r5.2
            exact this.symm
          -- the removed entry is the visited one
          have hlenJ : JA.length = IA.length := by
            rw [r3] at hnd
            have hg : (JA ++ jt :: JB)[JA.length]? = some jt := by simp
            have hg2 : (JA ++ jt :: JB)[IA.length]? = some it := by rw [← r3]; simp
            have hnd' := List.nodup_iff_injective_get.1 hnd
            have l1 : JA.length < (JA ++ jt :: JB).length := (List.getElem?_eq_some_iff.1 hg).1
            have l2 : IA.length < (JA ++ jt :: JB).length := (List.getElem?_eq_some_iff.1 hg2).1
            have e1 := (List.getElem?_eq_some_iff.1 hg).2
            have e2 := (List.getElem?_eq_some_iff.1 hg2).2
            have : ((JA ++ jt :: JB).map (·.2.1)).get ⟨JA.length, by simpa using l1⟩ =
                ((JA ++ jt :: JB).map (·.2.1)).get ⟨IA.length, by simpa using l2⟩ := by
              simp only [List.get_eq_getElem, List.getElem_map]
              rw [e1, e2, hjt]
            have := congrArg Fin.val (hnd' this); exact this
          obtain ⟨rfl, hx⟩ := List.append_inj r3 hlenJ.symm
          obtain ⟨rfl, rfl⟩ := List.cons.inj hx
          obtain ⟨rfl, hy⟩ := List.append_inj r2 (by omega)
          obtain ⟨rfl, rfl⟩ := List.cons.inj hy
          have ht' : getT s' = t' := by
            rw [r1] at hrem
            simp only [Except.ok.injEq, Prod.mk.injEq] at hrem
            exact hrem.1.symm
          have hee : e = e1 := by rw [he] at r9; exact Option.some.inj r9
          have hkeys2 : it.2.1 ∉ (IA ++ its).map (·.2.1) ∧ ((IA ++ its).map (·.2.1)).Nodup := by
            have hkeys := hr.keys
            simp only [List.map_append, List.map_cons] at hkeys
            have hk2 := (List.nodup_middle.1 hkeys)
            rw [List.nodup_cons] at hk2
            simpa using hk2
          refine ⟨i, e, s', e2, by rw [hh]; rfl, he, hk, hd, hcb, by rw [ht']; exact r10,
            A, B, IA, upd m it.2.1 none, ⟨by rw [ht']; exact r6, ?_, hkeys2.2, ?_⟩, hl, ?_, hi'⟩
          · intro x hx; apply hr.hashed; simp at hx ⊢; tauto
          · intro k' d'
            by_cases hkk : k' = it.2.1
            · subst hkk
              simp only [upd_self, reduceCtorEq, false_iff]
              intro hc
              exact hkeys2.1 (List.mem_map.2 ⟨_, hc, rfl⟩)
            · rw [upd_ne _ _ hkk, hr.maps]
              simp only [List.mem_append, List.mem_cons]
              constructor
              · rintro (h | h | h)
                · exact .inl h
                · exfalso; apply hkk; rw [← h]
                · exact .inr h
              · rintro (h | h)
                · exact .inl h
                · exact .inr (.inr h)
          · rw [r11, ← hee]; exact linked_head hmid.2
        · exact absurd hmatch (r2 it hmem))
  obtain ⟨L, items, r⟩ := ht
  have hlen : items.length ≤ (getT s).slots.length := by
    rw [← r.repr.length]
    have : L ⊆ List.range (getT s).slots.length := by
      intro i hi
      obtain ⟨e, he, _⟩ := r.repr.mem_iff.1 hi
      exact List.mem_range.2 (List.getElem?_eq_some_iff.1 he).1
    simpa using (List.Nodup.subperm r.repr.nodup this).length_le
  obtain ⟨s', h1, A, B, IA, m', hr, -, -, hi⟩ := key items (getT s).slots.length (getT s).head s hlen
    ⟨[], L, [], m, r, rfl, linked_head r.repr.linked, hI _ (by
        have := r.keys
        rw [List.map_map]; exact this) (by
        intro k d
        rw [r.maps]
        constructor
        · intro h
          obtain ⟨it, hit, he⟩ := List.mem_map.1 h
          have h3 := r.hashed it hit
          obtain ⟨a, b, c⟩ := it
          simp only [Prod.mk.injEq] at he h3
          obtain ⟨rfl, rfl⟩ := he
          rw [← h3]; exact hit
        · intro h; exact List.mem_map.2 ⟨_, h, rfl⟩)⟩
  exact ⟨s', m', h1, ⟨_, _, hr⟩, hi⟩

end Gotcha
