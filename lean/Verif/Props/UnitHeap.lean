import Verif.Proof.UnitHeap
/-
C119: the unit test of the allocator, of any size.
-/
namespace Gotcha.Unit
open Gotcha Spec.Malloc Props

/-- Either the outcome is as stated, or `mmap` failed and the program ran into the NULL pointer. -/
def Out {α : Type} (S : Prop) (r : Except Fault α) (P : α → Prop) : Prop :=
  (∃ x, r = .ok x ∧ P x) ∨ (S ∧ r = .error .outOfBounds)

/-- The state of the test: `arr` is its array of pointers, `ptr i` the pointer in it, `cnt i` how many integers of
that block are written, `base` what was live before. -/
structure HInv (pg n : Nat) (base : List (Nat × Nat)) (arr : Nat) (w : World) (ptr cnt : Nat → Nat) : Prop where
  reach : Reach pg w
  arr_live : (arr, 8 * n) ∈ w.live
  slot : ∀ i < n, w.heap.mem (arr + 8 * i) = some (ptr i)
  blk : ∀ i < n, ptr i ≠ 0 → (ptr i, 4 * i) ∈ w.live ∧
    ∀ j < cnt i, ∃ v, w.heap.mem (ptr i + 8 * (j / 2)) = some v ∧ half v j = i + j
  le : ∀ i < n, cnt i ≤ i
  mem : ∀ b ∈ w.live, b = (arr, 8 * n) ∨ (∃ i < n, ptr i ≠ 0 ∧ b = (ptr i, 4 * i)) ∨ b ∈ base
  old : ∀ b ∈ base, b ∈ w.live ∧ b.1 ≠ arr ∧ ∀ i < n, ptr i ≠ 0 → b.1 ≠ ptr i

section
variable {pg n arr : Nat} {mm : Mmap} {base : List (Nat × Nat)} {w : World} {ptr cnt : Nat → Nat} {S : Prop} {R₀ : List (Nat × Nat)}

theorem HInv.ne_arr (hp : PageSize pg) (h : HInv pg n base arr w ptr cnt) {i : Nat} (hi : i < n)
    (h0 : ptr i ≠ 0) : ptr i ≠ arr := by
  intro e
  have := live_uniq hp h.reach (h.blk i hi h0).1 h.arr_live e
  injection this with _ h2
  omega

theorem HInv.ne_ptr (hp : PageSize pg) (h : HInv pg n base arr w ptr cnt) {i j : Nat} (hi : i < n) (hj : j < n)
    (h0 : ptr i ≠ 0) (h1 : ptr j ≠ 0) (hij : i ≠ j) : ptr i ≠ ptr j := by
  intro e
  have := live_uniq hp h.reach (h.blk i hi h0).1 (h.blk j hj h1).1 e
  injection this with _ h2
  omega

/-! ### The check -/

theorem checkRow_ok {p i : Nat} : ∀ (l : List Nat),
    (∀ j ∈ l, ∃ v, w.heap.mem (p + 8 * (j / 2)) = some v ∧ half v j = i + j) → checkRow p i w l = .ok true
  | [], _ => rfl
  | j :: l, h => by
    obtain ⟨v, h1, h2⟩ := h j (List.mem_cons_self ..)
    simp [checkRow, getInt, Malloc.load, h1, h2, checkRow_ok l fun k hk => h k (List.mem_cons_of_mem _ hk)]

theorem check_ok (h : HInv pg n base arr w ptr id) : ∀ (l : List Nat), (∀ i ∈ l, i < n) →
    check arr w l = .ok true
  | [], _ => rfl
  | i :: l, hl => by
    have hi := hl i (List.mem_cons_self ..)
    have ih := check_ok h l fun k hk => hl k (List.mem_cons_of_mem _ hk)
    simp only [check, Malloc.load, h.slot i hi]
    by_cases h0 : ptr i = 0
    · rw [if_pos h0, ih]
    · rw [if_neg h0, checkRow_ok (List.range i) (by
        intro j hj
        exact (h.blk i hi h0).2 j (List.mem_range.1 hj))]
      exact ih

/-! ### The array of pointers -/

theorem clear_ok (hp : PageSize pg) : ∀ (l : List Nat) {w : World}, Reach pg w → (arr, 8 * n) ∈ w.live →
    (∀ i ∈ l, i < n) → ∃ w', clear arr l w = .ok w' ∧ Reach pg w' ∧ w'.live = w.live ∧ w'.regions = w.regions ∧
      ∀ i < n, i ∈ l ∨ w.heap.mem (arr + 8 * i) = some 0 → w'.heap.mem (arr + 8 * i) = some 0
  | [], w, h, _, _ => ⟨w, rfl, h, rfl, rfl, by intro i _ h; rcases h with h | h; cases h; exact h⟩
  | i :: l, w, h, ha, hl => by
    have hi := hl i (List.mem_cons_self ..)
    obtain ⟨w1, e1, r1, g1, l1, m1, _⟩ := setWord_ok hp h (i := i) ha (by omega) 0
    obtain ⟨w2, e2, r2, l2, g2, m2⟩ := clear_ok hp l r1 (by rw [l1]; exact ha)
      fun k hk => hl k (List.mem_cons_of_mem _ hk)
    refine ⟨w2, by simp [clear, e1, e2], r2, l2.trans l1, g2.trans g1, ?_⟩
    intro k hk hor
    refine m2 k hk ?_
    rw [m1]
    by_cases hki : k = i
    · right; subst hki; simp [upd]
    · rcases hor with hor | hor
      · rcases List.mem_cons.1 hor with h | h
        · exact absurd h hki
        · exact Or.inl h
      · right
        unfold upd
        rw [if_neg (by omega)]
        exact hor

/-! ### Filling a block -/

theorem fillRow_null (hp : PageSize pg) (h : HInv pg n base arr w ptr cnt) {j : Nat} (hj : j < n) (h0 : ptr j = 0)
    (hpos : 0 < j) : fillRow arr j (List.range j) w = .error .outOfBounds := by
  obtain ⟨m, rfl⟩ : ∃ m, j = m + 1 := ⟨j - 1, by omega⟩
  rw [List.range_eq_range', List.range'_succ]
  simp [fillRow, Malloc.load, h.slot _ hj, h0, setInt, mem_zero hp h.reach]

theorem fillRow_ok (hp : PageSize pg) (hn : n ≤ 2 ^ 30) {j : Nat} (hj : j < n) (h0 : ptr j ≠ 0) :
    ∀ (m k : Nat) {w : World} {cnt : Nat → Nat}, HInv pg n base arr w ptr cnt → cnt j = k → k + m = j →
    ∃ w', fillRow arr j (List.range' k m) w = .ok w' ∧ w'.regions = w.regions ∧
      HInv pg n base arr w' ptr (upd cnt j j)
  | 0, k, w, cnt, h, hc, hkm => by
    refine ⟨w, rfl, rfl, ?_⟩
    have : upd cnt j j = cnt := by
      funext x
      unfold upd
      split
      · rename_i hx
        subst hx
        omega
      · rfl
    rw [this]
    exact h
  | m + 1, k, w, cnt, h, hc, hkm => by
    rw [List.range'_succ]
    unfold fillRow
    simp only [Malloc.load, h.slot j hj]
    obtain ⟨hl, hb⟩ := h.blk j hj h0
    have hk8 : 8 * (k / 2) < 4 * j := by omega
    obtain ⟨v, hv⟩ := word_mapped hp h.reach hl hk8
    obtain ⟨w1, e1, r1, g1, l1, m1, f1⟩ := setWord_ok hp h.reach hl hk8 (setHalf v k (j + k))
    have h1 : HInv pg n base arr w1 ptr (upd cnt j (k + 1)) := by
      refine ⟨r1, by rw [l1]; exact h.arr_live, ?_, ?_, ?_, by rw [l1]; exact h.mem,
        by rw [l1]; exact h.old⟩
      · intro i hi
        rw [f1 _ h.arr_live (h.ne_arr hp hj h0).symm i (by simp only; omega)]
        exact h.slot i hi
      · intro i hi hi0
        rw [l1]
        refine ⟨(h.blk i hi hi0).1, ?_⟩
        by_cases hij : i = j
        · subst hij
          intro l hl'
          simp only [upd, if_true] at hl'
          rw [m1]
          by_cases hlk : l = k
          · rw [hlk]
            exact ⟨_, upd_self _ _ _, half_set _ _ _ (by omega)⟩
          · obtain ⟨u, hu1, hu2⟩ := hb l (by omega)
            by_cases hw : l / 2 = k / 2
            · rw [hw] at hu1 ⊢
              rw [hv] at hu1
              injection hu1 with hu1
              subst hu1
              refine ⟨_, upd_self _ _ _, ?_⟩
              rw [half_other _ _ _ _ (by omega)]
              exact hu2
            · refine ⟨u, ?_, hu2⟩
              unfold upd
              rw [if_neg (by omega)]
              exact hu1
        · intro l hl'
          simp only [upd, if_neg hij] at hl'
          have := h.le i hi
          rw [f1 _ (h.blk i hi hi0).1 (h.ne_ptr hp hi hj hi0 h0 hij) (l / 2) (by simp only; omega)]
          exact (h.blk i hi hi0).2 l hl'
      · intro i hi
        unfold upd
        split
        · omega
        · exact h.le i hi
    obtain ⟨w2, e2, g2, h2⟩ := fillRow_ok hp hn hj h0 m (k + 1) h1 (upd_self _ _ _) (by omega)
    have e : setInt (ptr j) k (j + k) w = .ok w1 := by
      simp only [setInt, Malloc.load, hv, e1]
    refine ⟨w2, by simp only [e, e2], g2.trans g1, ?_⟩
    have : upd (upd cnt j (k + 1)) j j = upd cnt j j := by
      funext x
      unfold upd
      split <;> rfl
    rw [this] at h2
    exact h2

/-! ### One allocation -/

/-- `gotcha_malloc` and the assignment of its result. -/
theorem take_ok (hp : PageSize pg) (hf : ∀ R l a, mm R l = some a → Fresh R a l) (hn : n ≤ 2 ^ 30) {j : Nat}
    (hj : j < n) (h : HInv pg n base arr w ptr cnt) (h0 : ptr j = 0) :
    ∃ w1 p w2, alloc pg mm (4 * j) w = .ok (w1, p) ∧ setWord (arr + 8 * j) p w1 = .ok w2 ∧
      total w2.regions ≤ total w.regions + areaMax pg (4 * j) ∧
      (∀ R₀, Asked mm R₀ w.regions → Asked mm R₀ w2.regions) ∧
      (p = 0 → ∃ l, l ≤ areaMax pg (4 * j) ∧ mm w.regions l = none) ∧
      HInv pg n base arr w2 (upd ptr j p) (upd cnt j 0) := by
  obtain ⟨w1, p, e1, r1, b1, a1, f1, z1, s1⟩ := alloc_ok hp hf h.reach (n := 4 * j) (by omega)
  have sub : ∀ b ∈ w.live, b ∈ w1.live := by
    intro b hb
    by_cases hp0 : p = 0
    · rw [(z1 hp0).1]; exact hb
    · rw [(s1 hp0).1]; exact List.mem_cons_of_mem _ hb
  obtain ⟨w2, e2, r2, g2, l2, m2, f2⟩ := setWord_ok hp r1 (sub _ h.arr_live) (i := j) (by omega) p
  refine ⟨w1, p, w2, e1, e2, by rw [g2]; exact b1, by rw [g2]; exact a1, fun hp0 => (z1 hp0).2, ?_⟩
  have keep : ∀ b ∈ w.live, b.1 ≠ arr → ∀ i, 8 * i < b.2 →
      w2.heap.mem (b.1 + 8 * i) = w.heap.mem (b.1 + 8 * i) := by
    intro b hb hne i hi
    rw [f2 b (sub b hb) hne i hi, f1 b hb i hi]
  refine ⟨r2, by rw [l2]; exact sub _ h.arr_live, ?_, ?_, ?_, ?_, ?_⟩
  · intro i hi
    rw [m2]
    by_cases hij : i = j
    · subst hij; rw [upd_self, upd_self]
    · unfold upd
      rw [if_neg (by omega), if_neg hij, f1 _ h.arr_live i (by simp only; omega)]
      exact h.slot i hi
  · intro i hi hi0
    rw [l2]
    by_cases hij : i = j
    · subst hij
      rw [upd_self] at hi0 ⊢
      refine ⟨by rw [(s1 hi0).1]; exact List.mem_cons_self .., ?_⟩
      intro l hl
      rw [upd_self] at hl
      omega
    · simp only [upd, if_neg hij] at hi0 ⊢
      obtain ⟨q1, q2⟩ := h.blk i hi hi0
      refine ⟨sub _ q1, ?_⟩
      intro l hl
      have := h.le i hi
      rw [keep _ q1 (h.ne_arr hp hi hi0) (l / 2) (by simp only; omega)]
      exact q2 l hl
  · intro i hi
    unfold upd
    split
    · omega
    · exact h.le i hi
  · rw [l2]
    intro b hb
    have hcase : b ∈ w.live ∨ (p ≠ 0 ∧ b = (p, 4 * j)) := by
      by_cases hp0 : p = 0
      · rw [(z1 hp0).1] at hb; exact Or.inl hb
      · rw [(s1 hp0).1] at hb
        rcases List.mem_cons.1 hb with rfl | hb
        · exact Or.inr ⟨hp0, rfl⟩
        · exact Or.inl hb
    rcases hcase with hb | ⟨hp0, rfl⟩
    · rcases h.mem b hb with h1 | ⟨i, hi, hi0, h1⟩ | h1
      · exact Or.inl h1
      · refine Or.inr (Or.inl ⟨i, hi, ?_⟩)
        have hij : i ≠ j := by rintro rfl; exact hi0 h0
        simp only [upd, if_neg hij]
        exact ⟨hi0, h1⟩
      · exact Or.inr (Or.inr h1)
    · refine Or.inr (Or.inl ⟨j, hj, ?_⟩)
      rw [upd_self]
      exact ⟨hp0, rfl⟩
  · intro b hb
    obtain ⟨q1, q2, q3⟩ := h.old b hb
    rw [l2]
    refine ⟨sub b q1, q2, ?_⟩
    intro i hi hi0
    by_cases hij : i = j
    · subst hij
      rw [upd_self] at hi0 ⊢
      exact (s1 hi0).2 b q1
    · simp only [upd, if_neg hij] at hi0 ⊢
      exact q3 i hi hi0

theorem upd_upd {f : Nat → Nat} {j a b : Nat} : upd (upd f j a) j b = upd f j b := by
  funext x
  unfold upd
  split <;> rfl

theorem upd_id {j : Nat} : upd id j j = id := by
  funext x
  unfold upd
  split
  · rename_i h; exact h.symm
  · rfl

theorem areaMax_mono {a b : Nat} (h : a ≤ b) : areaMax pg a ≤ areaMax pg b := by
  unfold areaMax; omega

/-- A shortage: `mmap` fails although no more than `bound` bytes are asked for in all. -/
def Short (mm : Mmap) (R₀ : List (Nat × Nat)) (bound : Nat) : Prop :=
  ∃ R l, Asked mm R₀ R ∧ total R + l ≤ bound ∧ mm R l = none

theorem fillSet_ok (hp : PageSize pg) (hf : ∀ R l a, mm R l = some a → Fresh R a l) (hn : n ≤ 2 ^ 30)
    {bound : Nat} : ∀ (l : List Nat) {w : World} {ptr : Nat → Nat}, l.Nodup → (∀ j ∈ l, j < n ∧ ptr j = 0) →
    Asked mm R₀ w.regions → total w.regions + l.length * areaMax pg (8 * n) ≤ bound → HInv pg n base arr w ptr id →
    Out (Short mm R₀ bound) (fillSet pg mm arr l w) fun w' => ∃ ptr', HInv pg n base arr w' ptr' id ∧
      total w'.regions ≤ total w.regions + l.length * areaMax pg (8 * n) ∧
      Asked mm R₀ w'.regions ∧ (∀ j, j ∉ l → ptr' j = ptr j) ∧ ∀ j ∈ l, ptr' j ≠ 0 ∨ Short mm R₀ bound
  | [], w, ptr, _, _, ha, _, h => Or.inl ⟨w, rfl, ptr, h, by simp, ha, by simp, by simp⟩
  | j :: l, w, ptr, hnd, hl, ha, hb, h => by
    obtain ⟨hj, h0⟩ := hl j (List.mem_cons_self ..)
    obtain ⟨hnj, hnl⟩ := List.nodup_cons.1 hnd
    obtain ⟨w1, p, w2, e1, e2, b2, a2, z2, h2⟩ := take_ok hp hf hn hj h h0
    have hM := areaMax_mono (pg := pg) (show 4 * j ≤ 8 * n by omega)
    simp only [List.length_cons, Nat.add_mul, Nat.one_mul] at hb ⊢
    have hrest : ∀ k ∈ l, k < n ∧ upd ptr j p k = 0 := by
      intro k hk
      have hkj : k ≠ j := by rintro rfl; exact hnj hk
      simp only [upd, if_neg hkj]
      exact hl k (List.mem_cons_of_mem _ hk)
    have short : p = 0 → Short mm R₀ bound := by
      intro hp0
      obtain ⟨m, hm1, hm2⟩ := z2 hp0
      exact ⟨_, m, ha, by omega, hm2⟩
    have fin : ∀ {w3 : World}, w3.regions = w2.regions → HInv pg n base arr w3 (upd ptr j p) id →
        Out (Short mm R₀ bound) (fillSet pg mm arr l w3) fun w' => ∃ ptr', HInv pg n base arr w' ptr' id ∧
          total w'.regions ≤ total w.regions + (l.length * areaMax pg (8 * n) + areaMax pg (8 * n)) ∧
          Asked mm R₀ w'.regions ∧ (∀ k, k ∉ j :: l → ptr' k = ptr k) ∧ ∀ k ∈ j :: l, ptr' k ≠ 0 ∨ Short mm R₀ bound := by
      intro w3 g3 h3
      rcases fillSet_ok hp hf hn (bound := bound) l hnl hrest (by rw [g3]; exact a2 _ ha)
          (by rw [g3]; omega) h3 with ⟨w4, e4, ptr', h4, b4, a4, k4, s4⟩ | hs
      · left
        refine ⟨w4, e4, ptr', h4, by rw [g3] at b4; omega, a4, ?_, ?_⟩
        · intro k hk
          rw [List.mem_cons, not_or] at hk
          rw [k4 k hk.2]
          simp only [upd, if_neg hk.1]
        · intro k hk
          rcases List.mem_cons.1 hk with rfl | hk
          · rw [k4 k hnj, upd_self]
            by_cases hp0 : p = 0
            · exact Or.inr (short hp0)
            · exact Or.inl hp0
          · exact s4 k hk
      · exact Or.inr hs
    have hcnt : j = 0 → upd id j 0 = id := by rintro rfl; exact upd_id
    by_cases hp0 : p = 0
    · by_cases hj0 : j = 0
      · rw [hcnt hj0] at h2
        have e3 : fillRow arr j (List.range j) w2 = .ok w2 := by rw [hj0]; rfl
        have := fin rfl h2
        simpa only [fillSet, e1, e2, e3] using this
      · right
        refine ⟨short hp0, ?_⟩
        have e3 := fillRow_null hp h2 hj (by rw [upd_self]; exact hp0) (by omega)
        simp only [fillSet, e1, e2, e3]
    · obtain ⟨w3, e3, g3, h3⟩ := fillRow_ok hp hn hj (ptr := upd ptr j p) (by rw [upd_self]; exact hp0) j 0 h2
        (upd_self _ _ _) (by omega)
      rw [← List.range_eq_range'] at e3
      rw [upd_upd, upd_id] at h3
      have := fin g3 h3
      simpa only [fillSet, e1, e2, e3] using this

/-! ### Giving back -/

theorem give_ok (hp : PageSize pg) {j : Nat} (hj : j < n) (h : HInv pg n base arr w ptr id) (h0 : ptr j ≠ 0) :
    ∃ w1 w2, release (ptr j) w = .ok w1 ∧ setWord (arr + 8 * j) 0 w1 = .ok w2 ∧
      w2.regions = w.regions ∧ HInv pg n base arr w2 (upd ptr j 0) id := by
  obtain ⟨w1, e1, r1, g1, l1, f1⟩ := release_ok hp h.reach (h.blk j hj h0).1
  have mem1 : ∀ b, b ∈ w1.live ↔ b ∈ w.live ∧ b.1 ≠ ptr j := by
    intro b
    rw [l1, List.mem_filter]
    simp
  have harr : (arr, 8 * n) ∈ w1.live := (mem1 _).2 ⟨h.arr_live, (h.ne_arr hp hj h0).symm⟩
  obtain ⟨w2, e2, r2, g2, l2, m2, f2⟩ := setWord_ok hp r1 harr (i := j) (by omega) 0
  refine ⟨w1, w2, e1, e2, g2.trans g1, r2, by rw [l2]; exact harr, ?_, ?_, h.le, ?_, ?_⟩
  · intro i hi
    rw [m2]
    by_cases hij : i = j
    · subst hij; rw [upd_self, upd_self]
    · unfold upd
      rw [if_neg (by omega), if_neg hij, f1 _ h.arr_live (h.ne_arr hp hj h0).symm i (by simp only; omega)]
      exact h.slot i hi
  · intro i hi hi0
    rw [l2]
    by_cases hij : i = j
    · subst hij
      rw [upd_self] at hi0
      exact absurd rfl hi0
    · simp only [upd, if_neg hij] at hi0 ⊢
      obtain ⟨q1, q2⟩ := h.blk i hi hi0
      have hne := h.ne_ptr hp hi hj hi0 h0 hij
      have hm := (mem1 _).2 ⟨q1, hne⟩
      refine ⟨hm, ?_⟩
      intro l hl
      have := h.le i hi
      rw [f2 _ hm (h.ne_arr hp hi hi0) (l / 2) (by simp only; omega),
        f1 _ q1 hne (l / 2) (by simp only; omega)]
      exact q2 l hl
  · rw [l2]
    intro b hb
    obtain ⟨hb, hne⟩ := (mem1 b).1 hb
    rcases h.mem b hb with h1 | ⟨i, hi, hi0, h1⟩ | h1
    · exact Or.inl h1
    · refine Or.inr (Or.inl ⟨i, hi, ?_⟩)
      have hij : i ≠ j := by rintro rfl; rw [h1] at hne; exact hne rfl
      simp only [upd, if_neg hij]
      exact ⟨hi0, h1⟩
    · exact Or.inr (Or.inr h1)
  · intro b hb
    obtain ⟨q1, q2, q3⟩ := h.old b hb
    rw [l2]
    refine ⟨(mem1 b).2 ⟨q1, q3 j hj h0⟩, q2, ?_⟩
    intro i hi hi0
    by_cases hij : i = j
    · subst hij
      rw [upd_self] at hi0
      exact absurd rfl hi0
    · simp only [upd, if_neg hij] at hi0 ⊢
      exact q3 i hi hi0

theorem freeSet_ok (hp : PageSize pg) : ∀ (l : List Nat) {w : World} {ptr : Nat → Nat}, l.Nodup →
    (∀ j ∈ l, j < n ∧ (ptr j ≠ 0 ∨ S)) → HInv pg n base arr w ptr id →
    Out S (freeSet arr l w) fun w' => w'.regions = w.regions ∧
      HInv pg n base arr w' (fun j => if j ∈ l then 0 else ptr j) id
  | [], w, ptr, _, _, h => Or.inl ⟨w, rfl, rfl, by simpa using h⟩
  | j :: l, w, ptr, hnd, hl, h => by
    obtain ⟨hj, h0⟩ := hl j (List.mem_cons_self ..)
    obtain ⟨hnj, hnl⟩ := List.nodup_cons.1 hnd
    unfold freeSet Out
    simp only [Malloc.load, h.slot j hj]
    by_cases hz : ptr j = 0
    · right
      rw [hz, release_null hp h.reach]
      exact ⟨h0.resolve_left fun h => h hz, rfl⟩
    · obtain ⟨w1, w2, e1, e2, g2, h2⟩ := give_ok hp hj h hz
      simp only [e1, e2]
      rcases freeSet_ok hp l hnl (by
        intro k hk
        have hkj : k ≠ j := by rintro rfl; exact hnj hk
        simp only [upd, if_neg hkj]
        exact hl k (List.mem_cons_of_mem _ hk)) h2 with ⟨w3, e3, g3, h3⟩ | hs
      · left
        refine ⟨w3, e3, g3.trans g2, ?_⟩
        have : (fun k => if k ∈ l then 0 else upd ptr j 0 k) = fun k => if k ∈ j :: l then 0 else ptr k := by
          funext k
          unfold upd
          by_cases h1 : k ∈ l
          · simp [h1]
          · by_cases h2 : k = j <;> simp [h1, h2]
        rw [this] at h3
        exact h3
      · exact Or.inr hs

/-! ### The stages -/

theorem stride_mem {s i j : Nat} : j ∈ stride n s i ↔ j < n ∧ j % s = i := by
  simp [stride]

theorem stride_nodup {s i : Nat} : (stride n s i).Nodup := List.nodup_range.filter _

theorem stride_length (n : Nat) : (stride n 3 0).length + (stride n 3 1).length + (stride n 3 2).length = n := by
  induction n with
  | zero => rfl
  | succ n ih =>
    unfold stride at ih ⊢
    simp only [List.range_succ, List.filter_append, List.length_append, List.filter_cons, List.filter_nil,
      decide_eq_true_eq]
    have := Nat.mod_lt n (show 3 > 0 by decide)
    rcases (show n % 3 = 0 ∨ n % 3 = 1 ∨ n % 3 = 2 by omega) with h | h | h <;> simp [h] <;> omega

theorem fillStages_ok (hp : PageSize pg) (hf : ∀ R l a, mm R l = some a → Fresh R a l) (hn : n ≤ 2 ^ 30)
    {bound : Nat} : ∀ (is : List Nat) {w : World} {ptr : Nat → Nat}, is.Nodup →
    (∀ j < n, j % 3 ∈ is → ptr j = 0) → (∀ j < n, j % 3 ∉ is → ptr j ≠ 0 ∨ Short mm R₀ bound) →
    Asked mm R₀ w.regions → total w.regions + (is.map fun i => (stride n 3 i).length).sum * areaMax pg (8 * n) ≤ bound →
    HInv pg n base arr w ptr id →
    Out (Short mm R₀ bound) (stages arr n (fun i => fillSet pg mm arr (stride n 3 i)) is w) fun r => r.2 = true ∧
      total r.1.regions ≤ total w.regions + (is.map fun i => (stride n 3 i).length).sum * areaMax pg (8 * n) ∧
      Asked mm R₀ r.1.regions ∧ ∃ ptr', HInv pg n base arr r.1 ptr' id ∧ ∀ j < n, ptr' j ≠ 0 ∨ Short mm R₀ bound
  | [], w, ptr, _, _, hd, ha, _, h =>
    Or.inl ⟨(w, true), rfl, rfl, by simp, ha, ptr, h, fun j hj => hd j hj (by simp)⟩
  | i :: is, w, ptr, hnd, hz, hd, ha, hb, h => by
    obtain ⟨hni, hnis⟩ := List.nodup_cons.1 hnd
    simp only [List.map_cons, List.sum_cons, Nat.add_mul] at hb ⊢
    unfold stages Out
    rcases fillSet_ok hp hf hn (bound := bound) (stride n 3 i) stride_nodup (by
      intro j hj
      obtain ⟨h1, h2⟩ := stride_mem.1 hj
      exact ⟨h1, hz j h1 (by rw [h2]; exact List.mem_cons_self ..)⟩) ha (by omega) h with
      ⟨w1, e1, ptr1, h1, b1, a1, k1, s1⟩ | ⟨hs, e1⟩
    · simp only [e1, check_ok h1 (List.range n) (fun i hi => List.mem_range.1 hi)]
      rcases fillStages_ok hp hf hn (bound := bound) is (ptr := ptr1) hnis (by
          intro j hj hm
          rw [k1 j (by rw [stride_mem]; rintro ⟨_, rfl⟩; exact hni hm)]
          exact hz j hj (List.mem_cons_of_mem _ hm)) (by
          intro j hj hm
          by_cases hji : j % 3 = i
          · exact s1 j (stride_mem.2 ⟨hj, hji⟩)
          · rw [k1 j (by rw [stride_mem]; rintro ⟨_, h⟩; exact hji h)]
            exact hd j hj (by rw [List.mem_cons, not_or]; exact ⟨hji, hm⟩)) a1 (by omega) h1 with
        ⟨r, e2, t2, b2, p2⟩ | hs
      · exact Or.inl ⟨r, e2, t2, by omega, p2⟩
      · exact Or.inr hs
    · right
      simp only [e1]
      exact ⟨hs, trivial⟩

theorem freeStages_ok (hp : PageSize pg) : ∀ (is : List Nat) {w : World} {ptr : Nat → Nat}, is.Nodup →
    (∀ j < n, j % 5 ∈ is → ptr j ≠ 0 ∨ S) → (∀ j < n, j % 5 ∉ is → ptr j = 0) →
    HInv pg n base arr w ptr id →
    Out S (stages arr n (fun i => freeSet arr (stride n 5 i)) is w) fun r => r.2 = true ∧
      r.1.regions = w.regions ∧ ∃ ptr', HInv pg n base arr r.1 ptr' id ∧ ∀ j < n, ptr' j = 0
  | [], w, ptr, _, _, hd, h => Or.inl ⟨(w, true), rfl, rfl, rfl, ptr, h, fun j hj => hd j hj (by simp)⟩
  | i :: is, w, ptr, hnd, hz, hd, h => by
    obtain ⟨hni, hnis⟩ := List.nodup_cons.1 hnd
    unfold stages Out
    rcases freeSet_ok hp (stride n 5 i) stride_nodup (by
      intro j hj
      obtain ⟨h1, h2⟩ := stride_mem.1 hj
      exact ⟨h1, hz j h1 (by rw [h2]; exact List.mem_cons_self ..)⟩) h with ⟨w1, e1, g1, h1⟩ | ⟨hs, e1⟩
    · simp only [e1, check_ok h1 (List.range n) (fun i hi => List.mem_range.1 hi)]
      rcases freeStages_ok hp is hnis (by
          intro j hj hm
          rw [if_neg (by rw [stride_mem]; rintro ⟨_, rfl⟩; exact hni hm)]
          exact hz j hj (List.mem_cons_of_mem _ hm)) (by
          intro j hj hm
          by_cases hji : j % 5 = i
          · rw [if_pos (stride_mem.2 ⟨hj, hji⟩)]
          · rw [if_neg (by rw [stride_mem]; rintro ⟨_, h⟩; exact hji h)]
            exact hd j hj (by rw [List.mem_cons, not_or]; exact ⟨hji, hm⟩)) h1 with
        ⟨r, e2, t2, b2, p2⟩ | hs
      · exact Or.inl ⟨r, e2, t2, b2.trans g1, p2⟩
      · exact Or.inr hs
    · right
      simp only [e1]
      exact ⟨hs, trivial⟩

/-! ### Rounds -/

theorem round_ok (hp : PageSize pg) (hf : ∀ R l a, mm R l = some a → Fresh R a l) (hn : n ≤ 2 ^ 30)
    {bound : Nat} (hr : Reach pg w) (ha : Asked mm R₀ w.regions) (hb : total w.regions + (n + 1) * areaMax pg (8 * n) ≤ bound) :
    Out (Short mm R₀ bound) (heapRound pg mm n w) fun r => r.2 = true ∧ Reach pg r.1 ∧ r.1.live.Perm w.live ∧
      total r.1.regions ≤ total w.regions + (n + 1) * areaMax pg (8 * n) ∧ Asked mm R₀ r.1.regions := by
  obtain ⟨w1, arr, e1, r1, b1, a1, f1, z1, s1⟩ := alloc_ok hp hf hr (n := 8 * n) (by omega)
  rw [Nat.add_mul, Nat.one_mul] at hb ⊢
  unfold heapRound Out
  simp only [e1]
  by_cases h0 : arr = 0
  · right
    obtain ⟨_, l, hl1, hl2⟩ := z1 h0
    refine ⟨⟨_, l, ha, by omega, hl2⟩, ?_⟩
    subst h0
    by_cases hn0 : n = 0
    · subst hn0
      have : release 0 w1 = .error .outOfBounds := release_null hp r1
      simp [clear, check, stages, fillSet, freeSet, stride, List.range_succ, this]
    · obtain ⟨m, rfl⟩ : ∃ m, n = m + 1 := ⟨n - 1, by omega⟩
      rw [List.range_eq_range', List.range'_succ]
      simp [clear, setWord_null hp r1]
  · obtain ⟨hlive, hfresh⟩ := s1 h0
    obtain ⟨w2, e2, r2, l2, g2, m2⟩ := clear_ok hp (List.range n) r1 (arr := arr) (n := n)
      (by rw [hlive]; exact List.mem_cons_self ..) (fun i hi => List.mem_range.1 hi)
    have h2 : HInv pg n w.live arr w2 (fun _ => 0) id := by
      refine ⟨r2, by rw [l2, hlive]; exact List.mem_cons_self .., ?_, ?_, fun i _ => Nat.le_refl _, ?_, ?_⟩
      · intro i hi
        exact m2 i hi (Or.inl (List.mem_range.2 hi))
      · intro i _ h
        exact absurd rfl h
      · intro b hb
        rw [l2, hlive] at hb
        rcases List.mem_cons.1 hb with rfl | hb
        · exact Or.inl rfl
        · exact Or.inr (Or.inr hb)
      · intro b hb
        refine ⟨by rw [l2, hlive]; exact List.mem_cons_of_mem _ hb, hfresh b hb, ?_⟩
        intro i _ h
        exact absurd rfl h
    have hsum : ((List.range 3).map fun i => (stride n 3 i).length).sum = n := by
      have := stride_length n
      simp only [List.range_succ, List.range_zero, List.nil_append, List.cons_append, List.map_cons, List.map_nil,
        List.sum_cons, List.sum_nil]
      omega
    simp only [e2, check_ok h2 (List.range n) (fun i hi => List.mem_range.1 hi)]
    rcases fillStages_ok hp hf hn (bound := bound) (List.range 3) List.nodup_range (fun _ _ _ => rfl) (by
        intro j _ hm
        exact absurd (List.mem_range.2 (Nat.mod_lt _ (by decide))) hm) (by rw [g2]; exact a1 _ ha)
        (by rw [hsum, g2]; omega) h2 with ⟨⟨w3, c3⟩, e3, t3, b3, a3, ptr3, h3, p3⟩ | ⟨hs, e3⟩
    · simp only at t3 b3 h3
      subst t3
      rw [hsum, g2] at b3
      simp only [e3]
      rcases freeStages_ok hp (List.range 5) List.nodup_range (fun j hj _ => p3 j hj) (by
          intro j _ hm
          exact absurd (List.mem_range.2 (Nat.mod_lt _ (by decide))) hm) h3 with
        ⟨⟨w4, c4⟩, e4, t4, g4, ptr4, h4, p4⟩ | ⟨hs, e4⟩
      · simp only at t4 g4 h4
        subst t4
        simp only [e4]
        obtain ⟨w5, e5, r5, g5, l5, _⟩ := release_ok hp h4.reach h4.arr_live
        left
        refine ⟨(w5, true), by simp only [e5], rfl, r5, ?_, by simp only; rw [g5, g4]; omega,
          by simp only; rw [g5, g4]; exact a3⟩
        have nd : ∀ {v : World}, Reach pg v → v.live.Nodup := fun h => (live_nodup hp h).of_map
        refine (List.perm_ext_iff_of_nodup (nd r5) (nd hr)).2 ?_
        intro b
        simp only [l5, List.mem_filter]
        constructor
        · rintro ⟨hb1, hb2⟩
          rcases h4.mem b hb1 with h | ⟨i, hi, hi0, _⟩ | h
          · subst h; simp at hb2
          · exact absurd (p4 i hi) hi0
          · exact h
        · intro hb1
          obtain ⟨q1, q2, _⟩ := h4.old b hb1
          exact ⟨q1, by simpa using q2⟩
      · right
        simp only [e4]
        exact ⟨hs, trivial⟩
    · right
      simp only [e3]
      exact ⟨hs, trivial⟩

end

theorem heapTest_ok {pg : Nat} (hp : PageSize pg) {mm : Mmap} (hf : ∀ R l a, mm R l = some a → Fresh R a l)
    {n : Nat} (hn : n ≤ 2 ^ 30) {R₀ : List (Nat × Nat)} (rounds : Nat) {w : World} (hr : Reach pg w)
    (ha : Asked mm R₀ w.regions) :
    (∃ w', heapTest pg mm n rounds w = .ok (w', true) ∧ Reach pg w' ∧ w'.live.Perm w.live ∧
      total w'.regions ≤ total w.regions + rounds * ((n + 1) * areaMax pg (8 * n))) ∨
    (heapTest pg mm n rounds w = .error .outOfBounds ∧
      Short mm R₀ (total w.regions + rounds * ((n + 1) * areaMax pg (8 * n)))) := by
  induction rounds generalizing w with
  | zero => exact Or.inl ⟨w, rfl, hr, List.Perm.refl _, by omega⟩
  | succ l ih =>
    rw [Nat.add_mul, Nat.one_mul]
    unfold heapTest
    rcases round_ok hp hf hn hr ha (Nat.le_refl _) with ⟨⟨w1, c⟩, e1, t1, r1, p1, b1, a1⟩ | ⟨⟨R, m, h0, h1, h2⟩, e1⟩
    · simp only at t1 r1 p1 b1 a1
      subst t1
      simp only [e1]
      rcases ih r1 a1 with ⟨w2, e2, r2, p2, b2⟩ | ⟨e2, R, m, h0, h1, h2⟩
      · exact Or.inl ⟨w2, e2, r2, p2.trans p1, by omega⟩
      · exact Or.inr ⟨e2, R, m, h0, by omega, h2⟩
    · right
      simp only [e1]
      exact ⟨trivial, R, m, h0, by omega, h2⟩

/-- C119: `gotcha_heap_test`, for every number of blocks and rounds and from every state of the heap: no assertion
fails, and in the end everything is given back; or `mmap` has refused memory (although in all no more than the stated
number of bytes were asked for), and the test has used the NULL pointer that `gotcha_malloc` returned. -/
theorem C119_heap_test {pg : Nat} (hp : PageSize pg) {mm : Mmap} (hf : ∀ R l a, mm R l = some a → Fresh R a l)
    {n : Nat} (hn : n ≤ 2 ^ 30) (rounds : Nat) {w : World} (hr : Reach pg w) :
    (∃ w', heapTest pg mm n rounds w = .ok (w', true) ∧ Reach pg w' ∧ w'.live.Perm w.live ∧
      total w'.regions ≤ total w.regions + rounds * ((n + 1) * areaMax pg (8 * n))) ∨
    (heapTest pg mm n rounds w = .error .outOfBounds ∧
      ∃ R l, Asked mm w.regions R ∧
        total R + l ≤ total w.regions + rounds * ((n + 1) * areaMax pg (8 * n)) ∧ mm R l = none) :=
  heapTest_ok hp hf hn rounds hr .start

/-- C119: with an `mmap` that hands out that much memory the test passes. -/
theorem C119_heap_test_passes {pg : Nat} (hp : PageSize pg) {mm : Mmap}
    (hf : ∀ R l a, mm R l = some a → Fresh R a l) {n : Nat} (hn : n ≤ 2 ^ 30) (rounds : Nat)
    (hm : ∀ R l, Asked mm [] R → total R + l ≤ rounds * ((n + 1) * areaMax pg (8 * n)) → mm R l ≠ none) :
    ∃ w, heapTest pg mm n rounds World.init = .ok (w, true) ∧ w.live = [] := by
  rcases C119_heap_test hp hf hn rounds (Reach.init (pg := pg)) with ⟨w, e, _, p, _⟩ | ⟨_, R, l, h0, h1, h2⟩
  · exact ⟨w, e, List.perm_nil.1 p⟩
  · exact absurd h2 (hm R l h0 (by simpa [total, World.init] using h1))

namespace Demo

/-- The end of the highest region. -/
def top : List (Nat × Nat) → Nat
  | [] => 8
  | r :: R => max (r.1 + r.2 + 8) (top R)

/-- An `mmap` that puts every region behind all the others. -/
def bump : Mmap := fun R l => if top R / 8 * 8 + l ≤ 2 ^ 63 then some (top R / 8 * 8) else none

theorem top_le : ∀ (R : List (Nat × Nat)), 8 ≤ top R ∧ ∀ r ∈ R, r.1 + r.2 + 8 ≤ top R
  | [] => ⟨by decide, by simp⟩
  | r :: R => by
    obtain ⟨h1, h2⟩ := top_le R
    unfold top
    refine ⟨by omega, ?_⟩
    intro x hx
    rcases List.mem_cons.1 hx with rfl | hx
    · omega
    · have := h2 x hx; omega

theorem bump_fresh : ∀ R l a, bump R l = some a → Fresh R a l := by
  intro R l a h
  unfold bump at h
  split at h
  · cases h
    rename_i hle
    obtain ⟨h1, h2⟩ := top_le R
    refine ⟨by omega, by omega, hle, ?_⟩
    intro r hr
    have := h2 r hr
    omega
  · cases h

theorem bump_top {R : List (Nat × Nat)} (h : Asked bump [] R) : top R ≤ 8 + 2 * total R := by
  induction h with
  | start => decide
  | @more R l a _ h8 e ih =>
    unfold bump at e
    split at e
    · cases e
      simp only [top, total, List.map_cons, List.sum_cons] at ih ⊢
      omega
    · cases e

end Demo

/-- Not vacuous: the sizes of the test itself. -/
example : ∃ w, heapTest 4096 Demo.bump 4096 10 World.init = .ok (w, true) ∧ w.live = [] := by
  refine C119_heap_test_passes ⟨by decide, by decide, by decide⟩ Demo.bump_fresh (by decide) 10 ?_
  intro R l hR hle
  have := Demo.bump_top hR
  unfold areaMax at hle
  unfold Demo.bump
  rw [if_pos (by omega)]
  simp

end Gotcha.Unit
