import Verif.Proof.Malloc
import Mathlib.Data.List.Perm.Subperm
import Mathlib.Data.List.Induction
/-
The search for the tightest fit, and `gotcha_malloc`.
-/
namespace Gotcha.Malloc
open Gotcha Gotcha.Spec.Malloc

/-- Is `b` better than the best so far? -/
def fits (m : Nat) (b : Blk) : Option Blk → Bool
  | none => decide (m ≤ b.2)
  | some c => decide (m ≤ b.2) && decide (b.2 < c.2)

/-- The first of the tightest free blocks, given the best so far. -/
def pick (m : Nat) : Option Blk → List Blk → Option Blk
  | best, [] => best
  | best, b :: r =>
    if fits m b best then (if b.2 = m then some b else pick m (some b) r) else pick m best r

/-- The result of `pick` is one of the blocks, large enough, and of minimal size. -/
theorem pick_spec {m : Nat} : ∀ {L : List Blk} {best : Option Blk},
    (∀ c, best = some c → m ≤ c.2) → match pick m best L with
      | none => best = none ∧ ∀ b ∈ L, b.2 < m
      | some c => (c ∈ L ∨ best = some c) ∧ m ≤ c.2 ∧ (∀ b ∈ L, m ≤ b.2 → c.2 ≤ b.2) ∧
          (∀ b, best = some b → c.2 ≤ b.2)
  | [], best, hb => by
    rw [pick]
    cases best with
    | none => simp
    | some c => exact ⟨Or.inr rfl, hb c rfl, by simp, by intro b e; exact Nat.le_of_eq (congrArg (·.2) (Option.some.inj e))⟩
  | b :: r, best, hb => by
    rw [pick]
    by_cases hf : fits m b best = true
    · have hm : m ≤ b.2 := by
        cases best <;> simp [fits] at hf <;> omega
      have hle : ∀ c, best = some c → b.2 ≤ c.2 := by
        intro c e
        subst e
        simp [fits] at hf
        omega
      rw [if_pos hf]
      by_cases he : b.2 = m
      · rw [if_pos he]
        refine ⟨Or.inl (List.mem_cons_self ..), hm, ?_, hle⟩
        intro c _ hc
        omega
      · rw [if_neg he]
        have ih := pick_spec (L := r) (best := some b) (by intro c e; rw [← Option.some.inj e]; exact hm)
        cases hp : pick m (some b) r with
        | none => rw [hp] at ih; exact absurd ih.1 (by simp)
        | some c =>
          rw [hp] at ih
          obtain ⟨h1, h2, h3, h4⟩ := ih
          refine ⟨?_, h2, ?_, ?_⟩
          · rcases h1 with h1 | h1
            · exact Or.inl (List.mem_cons_of_mem _ h1)
            · rw [← Option.some.inj h1]; exact Or.inl (List.mem_cons_self ..)
          · intro d hd hm'
            rcases List.mem_cons.mp hd with rfl | hd
            · exact h4 d rfl
            · exact h3 d hd hm'
          · intro d e
            exact Nat.le_trans (h4 b rfl) (hle d e)
    · rw [if_neg hf]
      have ih := pick_spec (L := r) (best := best) hb
      cases hp : pick m best r with
      | none =>
        rw [hp] at ih
        refine ⟨ih.1, ?_⟩
        intro c hc
        rcases List.mem_cons.mp hc with rfl | hc
        · rw [ih.1] at hf
          simp [fits] at hf
          exact hf
        · exact ih.2 c hc
      | some c =>
        rw [hp] at ih
        obtain ⟨h1, h2, h3, h4⟩ := ih
        refine ⟨?_, h2, ?_, h4⟩
        · rcases h1 with h1 | h1
          · exact Or.inl (List.mem_cons_of_mem _ h1)
          · exact Or.inr h1
        · intro d hd hm'
          rcases List.mem_cons.mp hd with rfl | hd
          · cases hbest : best with
            | none =>
              rw [hbest] at hf
              simp [fits] at hf
              omega
            | some e =>
              rw [hbest] at hf
              simp [fits] at hf
              have h5 := h4 e hbest
              have h6 := hf hm'
              omega
          · exact h3 d hd hm'

/-- The address of the last block of a list, 0 if there is none. -/
def lastAddr (L : List Blk) : Nat :=
  match L.getLast? with
  | none => 0
  | some b => b.1

/-- The search state of the code and of the abstract search. -/
def Same (m : Nat) (seen : List Blk) : Option (Nat × Nat × Nat) → Option Blk → Prop
  | none, none => True
  | some (x, prev, d), some (y, s) => x = y ∧ m ≤ s ∧ d = s - m ∧
      ∃ pre post, seen = pre ++ (x, s) :: post ∧ prev = lastAddr pre
  | _, _ => False

theorem Same.mono {m : Nat} {seen more : List Blk} {cb : Option (Nat × Nat × Nat)} {ab : Option Blk}
    (h : Same m seen cb ab) : Same m (seen ++ more) cb ab := by
  cases cb with
  | none => cases ab <;> exact h
  | some t =>
    obtain ⟨x, prev, d⟩ := t
    cases ab with
    | none => exact h
    | some b =>
      obtain ⟨h1, h2, h3, pre, post, h4, h5⟩ := h
      exact ⟨h1, h2, h3, pre, post ++ more, by rw [h4]; simp, h5⟩

theorem findFit_spec {h : Heap} {m : Nat} (hm : m ≤ 2 ^ 63) : ∀ (rest seen : List Blk) (n cur : Nat)
    (cb : Option (Nat × Nat × Nat)) (ab : Option Blk),
    (∀ b ∈ rest, 0 < b.1 ∧ b.1 + 8 + b.2 ≤ 2 ^ 63) → FreeList h.mem cur rest → rest.length < n →
    Same m seen cb ab →
    ∃ cb', findFit h m n cur (lastAddr seen) cb = .ok cb' ∧ Same m (seen ++ rest) cb' (pick m ab rest)
  | [], seen, n + 1, cur, cb, ab, _, hc, _, hs => by
    refine ⟨cb, ?_, by rw [List.append_nil]; exact hs⟩
    have hc' : cur = 0 := hc
    rw [findFit, if_pos hc']
  | b :: rest, seen, n + 1, cur, cb, ab, hok, ⟨h1, h2, nx, h3, h4⟩, hn, hs => by
    have hb := hok b (List.mem_cons_self ..)
    have hlast : lastAddr (seen ++ [b]) = b.1 := by simp [lastAddr]
    have hw : wrap (b.1 + 8) = b.1 + 8 := wrap_lt (by omega)
    have happ : seen ++ b :: rest = (seen ++ [b]) ++ rest := by simp
    have hrest := fun c hc => hok c (List.mem_cons_of_mem b hc)
    have hlen : rest.length < n := by simpa using hn
    subst h1
    rw [findFit, if_neg (by omega), load_some h2]
    simp only
    -- is it taken?
    have htake : (decide (sub64 b.2 m < 2 ^ 63) && better (sub64 b.2 m) cb) = fits m b ab := by
      by_cases hle : m ≤ b.2
      · rw [sub64_le (by omega) hle]
        have : decide (b.2 - m < 2 ^ 63) = true := decide_eq_true (by omega)
        rw [this, Bool.true_and]
        cases cb with
        | none =>
          cases ab with
          | none => simp [better, fits, hle]
          | some _ => exact absurd hs id
        | some t =>
          obtain ⟨x, prev, d⟩ := t
          cases ab with
          | none => exact absurd hs id
          | some c =>
            obtain ⟨e1, e2, e3, _⟩ := hs
            simp only [better, fits, hle, decide_true, Bool.true_and]
            rw [e3]
            apply decide_eq_decide.mpr
            omega
      · have hneg := sub64_gt (x := b.2) (y := m) (by omega) hm (by omega)
        rw [decide_eq_false hneg, Bool.false_and]
        cases ab <;> simp [fits, hle]
    rw [htake, pick]
    by_cases hf : fits m b ab = true
    · have hle : m ≤ b.2 := by cases ab <;> simp [fits] at hf <;> omega
      rw [hf, sub64_le (by omega) hle]
      have hsame : Same m (seen ++ [b]) (some (b.1, lastAddr seen, b.2 - m)) (some b) :=
        ⟨rfl, hle, rfl, seen, [], rfl, rfl⟩
      by_cases he : b.2 = m
      · have h0 : b.2 - m = 0 := by omega
        rw [if_pos (by simp [h0]), if_pos rfl, if_pos he]
        refine ⟨_, rfl, ?_⟩
        rw [happ]
        exact hsame.mono
      · have h0 : b.2 - m ≠ 0 := by omega
        rw [if_neg (by simp [h0]), if_pos rfl, if_neg he, hw, load_some h3]
        simp only [if_true]
        rw [← hlast, happ, hlast]
        have := findFit_spec hm rest (seen ++ [b]) n nx _ _ hrest h4 hlen hsame
        rw [hlast] at this
        exact this
    · rw [Bool.not_eq_true] at hf
      rw [hf]
      simp only [Bool.false_and, Bool.false_eq_true, if_false]
      rw [hw, load_some h3]
      simp only
      have := findFit_spec hm rest (seen ++ [b]) n nx cb ab hrest h4 hlen hs.mono
      rw [hlast] at this
      rw [happ]
      exact this

/-! ### Taking a block from the free list -/

theorem lastAddr_append (P : List Blk) (b : Blk) : lastAddr (P ++ [b]) = b.1 := by simp [lastAddr]

theorem Inv.unlink {h : Heap} {R pre post us : List Blk} {b : Blk}
    (I : Inv h R (pre ++ b :: post) us) :
    ∃ next h1, load h (wrap (b.1 + 8)) = .ok next ∧
      (if lastAddr pre ≠ 0 then store h (wrap (lastAddr pre + 8)) next
        else (.ok { h with free := next } : Except Fault Heap)) = .ok h1 ∧
      Inv h1 R (pre ++ post) (b :: us) ∧
      (∀ c ∈ b :: us, ∀ x, c.1 ≤ x → x < c.1 + 8 + c.2 → h1.mem x = h.mem x) := by
  have hbm : b ∈ pre ++ b :: post := by simp
  have hbd := I.bounds (List.mem_append_left us hbm)
  have hsz := I.sizes b (List.mem_append_left us hbm)
  obtain ⟨nx0, c1, c2⟩ := freeList_split I.chain
  obtain ⟨e1, e2, next, e3, e4⟩ := c1
  have hperm : (pre ++ post ++ b :: us).Perm (pre ++ b :: post ++ us) := by
    rw [List.append_assoc, List.append_assoc]
    apply List.Perm.append_left
    rw [List.cons_append]
    exact List.perm_middle
  have hpw := I.pairwise
  refine ⟨next, ?_⟩
  rw [wrap_lt (x := b.1 + 8) (by omega), load_some e3]
  rcases List.eq_nil_or_concat pre with rfl | ⟨P, a, e⟩
  · -- the head of the list
    refine ⟨{ h with free := next }, rfl, by simp [lastAddr], ?_, fun _ _ _ _ _ => rfl⟩
    exact {
      cover := by
        obtain ⟨B, d1, d2⟩ := I.cover
        exact ⟨B, d1, hperm.trans d2⟩
      regsOk := I.regsOk, regsApart := I.regsApart
      sizes := fun c hc => I.sizes c (hperm.mem_iff.mp hc)
      hdr := by
        intro c hc
        rcases List.mem_cons.mp hc with rfl | hc
        · exact e2
        · exact I.hdr c hc
      chain := e4
      mapped := I.mapped }
  · rw [List.concat_eq_append] at e
    subst e
    have ham : a ∈ (P ++ [a]) ++ b :: post := by simp
    have hab := I.bounds (List.mem_append_left us ham)
    have has := I.sizes a (List.mem_append_left us ham)
    have hmap := I.word (List.mem_append_left us ham) (x := a.1 + 8) (by omega) (by omega) (by omega)
    rw [lastAddr_append, if_pos (by omega), wrap_lt (by omega), store_ok hmap]
    -- every other block is apart from a
    have hoth : ∀ c ∈ P ++ b :: (post ++ us), Disj a c := by
      have hp2 : (P ++ [a] ++ b :: post ++ us).Perm (a :: (P ++ b :: (post ++ us))) := by
        rw [List.append_assoc, List.append_assoc]
        exact List.perm_middle
      have := (List.Perm.pairwise_iff (fun h => disj_symm h) hp2).mp hpw
      rw [List.pairwise_cons] at this
      exact this.1
    have hne : ∀ c ∈ P ++ b :: (post ++ us), ∀ x, c.1 ≤ x → x < c.1 + 8 + c.2 → x ≠ a.1 + 8 := by
      intro c hc x hx1 hx2
      have := hoth c hc
      unfold Disj Apart at this
      omega
    have hkeep : ∀ c ∈ P ++ b :: (post ++ us), 
        upd h.mem (a.1 + 8) (some next) c.1 = h.mem c.1 ∧
        upd h.mem (a.1 + 8) (some next) (c.1 + 8) = h.mem (c.1 + 8) := by
      intro c hc
      have hc' : c ∈ P ++ [a] ++ b :: post ++ us := by
        simp only [List.mem_append, List.mem_cons, List.mem_singleton, List.not_mem_nil] at hc ⊢
        rcases hc with hc | hc | hc | hc
        · exact Or.inl (Or.inl (Or.inl hc))
        · exact Or.inl (Or.inr (Or.inl hc))
        · exact Or.inl (Or.inr (Or.inr hc))
        · exact Or.inr hc
      have hs := I.sizes c hc'
      exact ⟨upd_ne _ _ (hne c hc _ (by omega) (by omega)),
        upd_ne _ _ (hne c hc _ (by omega) (by omega))⟩
    refine ⟨_, rfl, rfl, ?_, ?_⟩
    · exact {
        cover := by
          obtain ⟨B, d1, d2⟩ := I.cover
          exact ⟨B, d1, hperm.trans d2⟩
        regsOk := I.regsOk, regsApart := I.regsApart
        sizes := fun c hc => I.sizes c (hperm.mem_iff.mp hc)
        hdr := by
          intro c hc
          rcases List.mem_cons.mp hc with rfl | hc
          · exact (hkeep c (by simp)).1.trans e2
          · exact (hkeep c (by simp [hc])).1.trans (I.hdr c hc)
        chain := by
          have hc := I.chain
          rw [List.append_assoc] at hc
          obtain ⟨ny, f1, f2⟩ := freeList_split hc
          obtain ⟨g1, g2, nz, g3, g4⟩ := f1
          rw [List.append_assoc]
          apply f2
          · intro c hc
            exact hkeep c (by simp [hc])
          · refine ⟨g1, ?_, next, upd_self .., ?_⟩
            · show upd h.mem (a.1 + 8) (some next) a.1 = _
              rw [upd_ne _ _ (by omega)]
              exact g2
            · exact freeList_congr e4 (fun c (hc : c ∈ post) => hkeep c (by simp [hc]))
        mapped := by
          intro y
          rw [← I.mapped y]
          show upd h.mem (a.1 + 8) (some next) y ≠ none ↔ _
          by_cases hy : y = a.1 + 8
          · subst hy
            rw [upd_self]
            exact ⟨fun _ => hmap, fun _ => by simp⟩
          · rw [upd_ne _ _ hy] }
    · intro c hc x h1 h2
      have hc' : c ∈ P ++ b :: (post ++ us) := by
        rcases List.mem_cons.mp hc with rfl | hc
        · simp
        · simp [hc]
      exact upd_ne _ _ (hne c hc' x h1 h2)

/-! ### A new region -/

theorem Inv.mmap {h : Heap} {R fl us : List Blk} (I : Inv h R fl us) {a l : Nat}
    (hf : Fresh R a l) (h8 : l % 8 = 0) (hl : 16 ≤ l) :
    ∃ h1, store { h with mem := Malloc.mapped h.mem a l } a (sub64 l 8) = .ok h1 ∧
      Inv h1 ((a, l) :: R) fl ((a, l - 8) :: us) ∧
      (∀ c ∈ us, ∀ x, c.1 ≤ x → x < c.1 + 8 + c.2 → h1.mem x = h.mem x) := by
  obtain ⟨f1, f2, f3, f4⟩ := hf
  have hm : Malloc.mapped h.mem a l a ≠ none := by
    unfold Malloc.mapped
    rw [if_pos ⟨by omega, by omega, f2⟩]
    simp
  rw [store_ok hm, sub64_le (by omega) (by omega)]
  -- old blocks are apart from the region
  have hout : ∀ c ∈ fl ++ us, ∀ x, c.1 ≤ x → x < c.1 + 8 + c.2 →
      upd (Malloc.mapped h.mem a l) a (some (l - 8)) x = h.mem x := by
    intro c hc x h1 h2
    obtain ⟨_, _, r, hr, h3⟩ := I.bounds hc
    have := f4 r hr
    rw [upd_ne _ _ (by omega)]
    unfold Malloc.mapped
    rw [if_neg (by omega)]
  refine ⟨_, rfl, ?_, fun c hc => hout c (List.mem_append_right _ hc)⟩
  exact {
    cover := by
      obtain ⟨B, c1, c2⟩ := I.cover
      refine ⟨[(a, l - 8)] ++ B, Cover.cons ⟨rfl, ?_⟩ c1, ?_⟩
      · show a + 8 + (l - 8) = a + l
        omega
      · exact List.perm_middle.trans (List.Perm.cons _ c2)
    regsOk := by
      intro r hr
      rcases List.mem_cons.mp hr with rfl | hr
      · exact ⟨f1, f2, f3⟩
      · exact I.regsOk r hr
    regsApart := List.Pairwise.cons (fun r hr => f4 r hr) I.regsApart
    sizes := by
      intro c hc
      rcases List.mem_append.mp hc with hc | hc
      · exact I.sizes c (List.mem_append_left _ hc)
      · rcases List.mem_cons.mp hc with rfl | hc
        · refine ⟨f2, ?_, ?_⟩ <;> simp only <;> omega
        · exact I.sizes c (List.mem_append_right _ hc)
    hdr := by
      intro c hc
      rcases List.mem_cons.mp hc with rfl | hc
      · exact upd_self ..
      · exact (hout c (List.mem_append_right _ hc) _ (by omega) (by omega)).trans (I.hdr c hc)
    chain := by
      refine freeList_congr I.chain ?_
      intro c hc
      have hs := I.sizes c (List.mem_append_left _ hc)
      exact ⟨hout c (List.mem_append_left _ hc) _ (by omega) (by omega),
        hout c (List.mem_append_left _ hc) _ (by omega) (by omega)⟩
    mapped := by
      intro y
      show upd (Malloc.mapped h.mem a l) a (some (l - 8)) y ≠ none ↔ _
      have hy : upd (Malloc.mapped h.mem a l) a (some (l - 8)) y ≠ none ↔ Malloc.mapped h.mem a l y ≠ none := by
        by_cases hy : y = a
        · subst hy
          rw [upd_self]
          exact ⟨fun _ => hm, fun _ => by simp⟩
        · rw [upd_ne _ _ hy]
      rw [hy]
      unfold Malloc.mapped
      by_cases hin : a ≤ y ∧ y < a + l ∧ y % 8 = 0
      · rw [if_pos hin]
        exact ⟨fun _ => ⟨hin.2.2, (a, l), List.mem_cons_self .., hin.1, hin.2.1⟩, fun _ => by simp⟩
      · rw [if_neg hin, I.mapped y]
        constructor
        · rintro ⟨h1, r, hr, h2⟩
          exact ⟨h1, r, List.mem_cons_of_mem _ hr, h2⟩
        · rintro ⟨h1, r, hr, h2⟩
          rcases List.mem_cons.mp hr with rfl | hr
          · exact absurd ⟨h2.1, h2.2, h1⟩ hin
          · exact ⟨h1, r, hr, h2⟩ }

/-! ### gotcha_malloc -/

theorem roundSize_spec {n : Nat} (hn : n < 2 ^ 63) : roundSize n % 8 = 0 ∧ 8 ≤ roundSize n ∧
    n ≤ roundSize n ∧ roundSize n ≤ 2 ^ 63 ∧ roundSize n < max n 8 + 8 := by
  unfold roundSize wrap
  simp only
  by_cases h8 : n < 8
  · rw [if_pos h8]
    simp
    omega
  · rw [if_neg h8]
    split <;> omega

theorem blockLen_spec {pg m : Nat} (h8 : m % 8 = 0) (hm : m ≤ 2 ^ 63) (hpg : pg % 8 = 0)
    (hpos : 0 < pg) (hpg32 : pg < 2 ^ 32) : m + 8 ≤ blockLen pg m ∧ 16 ≤ blockLen pg m + 0 ∧
    (blockLen pg m < 2 ^ 63 → blockLen pg m % 8 = 0) := by
  have hmod : ∀ b, b % 8 = 0 → b % pg % 8 = 0 := by
    intro b hb
    obtain ⟨k, hk⟩ := Nat.dvd_of_mod_eq_zero hpg
    have h1 : b % pg % 8 = b % 8 := Nat.mod_mod_of_dvd b ⟨k, hk⟩
    rw [h1]; exact hb
  have hlt : ∀ b, b % pg < pg := fun b => Nat.mod_lt _ hpos
  unfold blockLen wrap
  rw [Nat.mod_eq_of_lt (show m + 8 < 2 ^ 64 by omega)]
  simp only
  by_cases hbig : m + 8 > 32768
  · rw [if_pos hbig]
    by_cases h63 : m + 8 < 2 ^ 63
    · rw [if_pos h63]
      have h1 := hmod (m + 8) (by omega)
      have h2 := hlt (m + 8)
      generalize (m + 8) % pg = d at *
      by_cases hd : d ≠ 0
      · rw [if_pos hd, Nat.mod_eq_of_lt (by omega)]
        omega
      · rw [if_neg hd]
        omega
    · rw [if_neg h63]
      have h2 := hlt (2 ^ 64 - (m + 8))
      generalize (2 ^ 64 - (m + 8)) % pg = d at *
      by_cases hd : d ≠ 0
      · rw [if_pos hd, Nat.mod_eq_of_lt (by omega)]
        omega
      · rw [if_neg hd]
        omega
  · rw [if_neg hbig]
    omega

theorem Inv.length {h : Heap} {R fl us : List Blk} (I : Inv h R fl us) : fl.length < 2 ^ 64 := by
  have hnd : (fl.map (·.1)).Nodup := by
    have hpw := I.pairwise
    rw [List.pairwise_append] at hpw
    rw [List.Nodup, List.pairwise_map]
    refine hpw.1.imp ?_
    intro b c hd he
    unfold Disj Apart at hd
    omega
  have hsub : fl.map (·.1) ⊆ List.range (2 ^ 63) := by
    intro x hx
    obtain ⟨b, hb, rfl⟩ := List.mem_map.mp hx
    have := I.bounds (List.mem_append_left us hb)
    rw [List.mem_range]
    omega
  have := (List.subperm_of_subset hnd hsub).length_le
  rw [List.length_map, List.length_range] at this
  omega

/-- What `gotcha_malloc` does to the abstract state. -/
theorem malloc_spec {h : Heap} {R fl us : List Blk} (I : Inv h R fl us) {pg n : Nat}
    (hpg : pg % 8 = 0) (hpos : 0 < pg) (hpg32 : pg < 2 ^ 32) (hn : n < 2 ^ 63)
    {mm : Nat → Option Nat} (henv : ∀ l a, mm l = some a → Fresh R a l) :
    match pick (roundSize n) none fl with
    | some b => ∃ h', malloc h pg mm n = .ok (h', b.1 + 8, none) ∧
        Inv h' R ((cut b (roundSize n)).2 ++ fl.erase b) ((cut b (roundSize n)).1 :: us) ∧
        (∀ c ∈ us, ∀ x, c.1 ≤ x → x < c.1 + 8 + c.2 → h'.mem x = h.mem x)
    | none =>
      match mm (blockLen pg (roundSize n)) with
      | none => malloc h pg mm n = .ok (h, 0, some (blockLen pg (roundSize n), none))
      | some a => ∃ h', malloc h pg mm n =
            .ok (h', a + 8, some (blockLen pg (roundSize n), some a)) ∧
          Inv h' ((a, blockLen pg (roundSize n)) :: R)
            ((cut (a, blockLen pg (roundSize n) - 8) (roundSize n)).2 ++ fl)
            ((cut (a, blockLen pg (roundSize n) - 8) (roundSize n)).1 :: us) ∧
          (∀ c ∈ us, ∀ x, c.1 ≤ x → x < c.1 + 8 + c.2 → h'.mem x = h.mem x) := by
  obtain ⟨r1, r2, r3, r4, _⟩ := roundSize_spec hn
  generalize hm : roundSize n = m at *
  have hbl := blockLen_spec r1 r4 hpg hpos hpg32
  obtain ⟨cb, g1, g2⟩ := findFit_spec (h := h) r4 fl [] (2 ^ 64) h.free none none
    (fun b hb => by
      have := I.bounds (List.mem_append_left us hb)
      exact ⟨this.1, this.2.1⟩) I.chain I.length trivial
  have g1' : findFit h m (2 ^ 64) h.free 0 none = .ok cb := g1
  rw [List.nil_append] at g2
  have hps := pick_spec (m := m) (L := fl) (best := none) (by intro c e; cases e)
  cases hp : pick m none fl with
  | some b =>
    rw [hp] at g2 hps
    simp only
    cases cb with
    | none => exact absurd g2 id
    | some t =>
      obtain ⟨x, prev, d⟩ := t
      obtain ⟨k1, k2, _, pre, post, k3, k4⟩ := g2
      have hb : (x, b.2) = b := by rw [k1]
      rw [hb] at k3
      have hers : fl.erase b = pre ++ post := by
        rw [k3]
        rw [List.erase_append_right]
        · simp
        · intro hmem
          have hpw := I.pairwise
          rw [k3, List.append_assoc, List.pairwise_append] at hpw
          have := hpw.2.2 b hmem b (by simp)
          unfold Disj Apart at this
          omega
      rw [k3] at I
      obtain ⟨next, h1, u1, u2, u3, u4⟩ := I.unlink
      obtain ⟨h2, v1, v2, v3⟩ := u3.split r1 r2 k2
      have hbd := I.bounds (b := b) (by simp)
      refine ⟨h2, ?_, ?_, ?_⟩
      · unfold Malloc.malloc
        simp only
        rw [hm, g1']
        simp only
        rw [k1, u1]
        simp only
        rw [k4, u2]
        simp only
        rw [v1]
        simp only
        rw [wrap_lt (by omega)]
      · rw [hers]; exact v2
      · intro c hc y h3 h4
        have hd : Disj b c := I.apart_fl_us (by simp) hc
        have hsc := I.sizes c (List.mem_append_right _ hc)
        unfold Disj Apart at hd
        rw [v3 y (by omega)]
        exact u4 c (List.mem_cons_of_mem _ hc) y h3 h4
  | none =>
    rw [hp] at g2
    cases cb with
    | some t => exact absurd g2 id
    | none =>
      simp only
      cases hmm : mm (blockLen pg m) with
      | none =>
        unfold Malloc.malloc
        simp only
        rw [hm, g1']
        simp only
        rw [hmm]
      | some a =>
        have hf := henv _ _ hmm
        have hlt : blockLen pg m < 2 ^ 63 := by
          have := hf.1
          have := hf.2.2.1
          omega
        obtain ⟨h1, u1, u2, u3⟩ := I.mmap hf (hbl.2.2 hlt) (by omega)
        obtain ⟨h2, v1, v2, v3⟩ := u2.split (n := m) r1 r2 (by show m ≤ blockLen pg m - 8; omega)
        refine ⟨h2, ?_, v2, ?_⟩
        · unfold Malloc.malloc
          simp only
          rw [hm, g1']
          simp only
          rw [hmm]
          simp only
          rw [u1]
          simp only
          rw [v1]
          simp only
          rw [wrap_lt (by have := hf.2.2.1; omega)]
        · intro c hc y h3 h4
          obtain ⟨_, _, r, hr, h5⟩ := I.bounds (List.mem_append_right fl hc)
          have := hf.2.2.2 r hr
          rw [v3 y (by show y < a ∨ a + 8 + (blockLen pg m - 8) ≤ y; omega)]
          exact u3 c hc y h3 h4

end Gotcha.Malloc
