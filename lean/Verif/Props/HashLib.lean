import Verif.Proof.HashLib
/-
C130: src/hash.c as a library.
-/
namespace Gotcha.Heap
open Gotcha Spec HashProps

variable {K D : Type} {hash : K → BitVec 32} {cmp : K → K → Bool}

/-- The array of a variable, and its size. -/
def arrOf (x : Option (Obj K D)) : Option (Nat × Nat) := x.bind fun x => x.arr.map fun a => (a, x.tab.size)

/-- A variable that has been destroyed. -/
def Obj.gone : Obj K D := { tab := { slots := [], count := 0, head := none }, arr := none, funcs := false }

/-- A variable is what the client takes it for. -/
def VarOk (hash : K → BitVec 32) (m : Option Bool) (x : Option (Obj K D)) : Life K D → Prop
  | .fresh => m = none ∧ x = none
  | .has bag => m = some true ∧
      ∃ t a items, x = some ⟨t, some a, true⟩ ∧ Good hash t items ∧ bag = strip items
  | .gone => m = some false ∧ x = some Obj.gone

structure HlInv (k : Kind) (hash : K → BitVec 32) (m : Nat → Option Bool) (s : Vars K D) (c : Nat → Life K D)
    (h : Mem) : Prop where
  own : Own k (fun i => arrOf (s i)) h
  var : ∀ i, VarOk hash (m i) (s i) (c i)

theorem arr_put (s : Vars K D) (i x) :
    (fun j => arrOf (putAt s i x j)) = putAt (fun j => arrOf (s j)) i (arrOf x) := by
  funext j
  by_cases h : j = i
  · subst h; simp [putAt_same]
  · simp [putAt_ne _ _ h]

theorem put_self {α : Type} (f : Nat → α) {i : Nat} {x : α} (h : f i = x) : putAt f i x = f := by
  funext j
  by_cases e : j = i
  · subst e; rw [putAt_same, h]
  · rw [putAt_ne _ _ e]

theorem put_put {α : Type} (f : Nat → α) (i : Nat) (x y : α) : putAt (putAt f i x) i y = putAt f i y := by
  funext j
  by_cases e : j = i
  · subst e; simp [putAt_same]
  · simp [putAt_ne _ _ e]

theorem HlInv.put {k : Kind} {m : Nat → Option Bool} {s : Vars K D} {c : Nat → Life K D} {h h' : Mem}
    (v : HlInv k hash m s c h) {i : Nat} {b x l} (ho : Own k (putAt (fun j => arrOf (s j)) i (arrOf x)) h')
    (hv : VarOk hash b x l) : HlInv k hash (putAt m i b) (putAt s i x) (putAt c i l) h' where
  own := by rw [arr_put]; exact ho
  var := by
    intro j
    by_cases e : j = i
    · subst e; simpa only [putAt_same] using hv
    · simpa only [putAt_ne _ _ e] using v.var j

/-- One call that the client permits itself. -/
theorem perform_ok (hc : ∀ a b, cmp a b = true ↔ a = b) {k : Kind} {page : Nat} (hp : 48 ≤ page) {o : Nat → Bool}
    {m : Nat → Option Bool} {s : Vars K D} {c : Nat → Life K D} {h : Mem} (v : HlInv k hash m s c h)
    (op : HlOp K D) (hn : ∀ i n, op = .create i n → 0 < n) (ok : permitted m op = true) :
    (∃ s' ob h' c', perform k page hash cmp s op o h = .ok ((s', ob), h') ∧
      HlInv k hash (remember m op ob) s' c' h' ∧
      ∀ ops obs c'', HlRun c' ops obs c'' → HlRun c (op :: ops) (ob :: obs) c'') ∨
    (perform k page hash cmp s op o h = .error (.fault .nullDeref) ∧ ∃ n, o n = false) := by
  cases op with
  | create i n =>
    left
    have hm : m i ≠ some true := by simpa [permitted] using ok
    have hnot : ∀ b, c i ≠ .has b := by
      intro b e
      have := v.var i
      rw [e] at this
      exact hm this.1
    have harr : arrOf (s i) = none := by
      have := v.var i
      cases e : c i with
      | fresh => rw [e] at this; rw [this.2]; rfl
      | has b => exact absurd e (hnot b)
      | gone => rw [e] at this; rw [this.2]; rfl
    obtain ⟨t, ht, g⟩ := create_good (K := K) (D := D) hash hp (hn i n rfl)
    cases ho : o h.calls with
    | true =>
      refine ⟨putAt s i (some ⟨t, some h.calls, true⟩), .created true,
        { h with calls := h.calls + 1, live := ⟨h.calls, k, t.size⟩ :: h.live }, putAt c i (.has []), ?_, ?_,
        fun ops obs c'' r => .made hnot r⟩
      · simp [perform, create, bind, M.andThen, lift, ht, alloc, ho, pure, M.ret]
      · exact v.put (v.own.alloc harr t.size) ⟨rfl, t, _, _, rfl, g, rfl⟩
    | false =>
      refine ⟨s, .created false, { h with calls := h.calls + 1 }, c, ?_, ⟨v.own.bump, v.var⟩,
        fun ops obs c'' r => .failed hnot r⟩
      simp [perform, create, bind, M.andThen, lift, ht, alloc, ho, pure, M.ret]
  | use i op =>
    have hm : m i = some true := by simpa [permitted] using ok
    have hv := v.var i
    cases hci : c i with
    | fresh => rw [hci] at hv; rw [hv.1] at hm; cases hm
    | gone => rw [hci] at hv; rw [hv.1] at hm; cases hm
    | has bag =>
      rw [hci] at hv
      obtain ⟨-, t, a, items, hs, g, rfl⟩ := hv
      have hmm : putAt m i (some true) = m := put_self m hm
      cases op with
      | add key d =>
        obtain ⟨t', items', g', p, h1⟩ := addto_heap g k a key d o h
        have hb : BagRun (strip items) [.add key d] [.added] (strip ((hash key, key, d) :: items')) :=
          .add (.nil ((p.symm.map _).cons _))
        rcases h1 with ⟨hsz, h1⟩ | ⟨n, hsz, ho, h1⟩ | ⟨ho, h1⟩
        · left
          refine ⟨putAt s i (some ⟨t', some a, true⟩), .did .added, h, putAt c i (.has _), ?_, ?_,
            fun ops obs c'' r => .used hci hb r⟩
          · simp [perform, useTable, hs, bind, M.andThen, h1, pure, M.ret]
          · rw [show remember m (.use i (.add key d)) (.did .added) = putAt m i (some true) from hmm.symm]
            refine v.put ?_ ⟨rfl, t', a, _, rfl, g', rfl⟩
            rw [put_self]
            · exact v.own
            · show arrOf (s i) = some (a, t'.size)
              rw [hs, hsz]
              rfl
        · left
          have hai : arrOf (s i) = some (a, t.size) := by rw [hs]; rfl
          obtain ⟨hany, w⟩ := v.own.free (i := i) hai
          have hlt := v.own.lt _ (v.own.mem (i := i) hai)
          have hne : ((⟨h.calls, k, n⟩ : Block).id == a) = false := by
            simp only [beq_eq_false_iff_ne]
            show h.calls ≠ a
            simp only at hlt
            omega
          have hfree : free (some a) o { h with calls := h.calls + 1, live := ⟨h.calls, k, n⟩ :: h.live } =
              .ok ((), { h with calls := h.calls + 1,
                                live := ⟨h.calls, k, n⟩ :: h.live.eraseP (fun b => b.id == a) }) := by
            unfold free
            simp only [List.any_cons, hany, Bool.or_true, if_true,
              List.eraseP_cons_of_neg (p := fun b : Block => b.id == a) (by rw [hne]; simp)]
          rw [hfree] at h1
          refine ⟨putAt s i (some ⟨t', some h.calls, true⟩), .did .added,
            { h with calls := h.calls + 1, live := ⟨h.calls, k, n⟩ :: h.live.eraseP (fun b => b.id == a) },
            putAt c i (.has _), ?_, ?_, fun ops obs c'' r => .used hci hb r⟩
          · simp [perform, useTable, hs, bind, M.andThen, h1, pure, M.ret]
          · rw [show remember m (.use i (.add key d)) (.did .added) = putAt m i (some true) from hmm.symm]
            refine v.put ?_ ⟨rfl, t', h.calls, _, rfl, g', rfl⟩
            have := w.alloc (i := i) (putAt_same ..) n
            rw [put_put] at this
            show Own k (putAt _ i (some (h.calls, t'.size))) _
            rw [hsz]
            exact this
        · right
          refine ⟨?_, h.calls, ho⟩
          simp [perform, useTable, hs, bind, M.andThen, h1]
      | remove key =>
        left
        rcases remove_good g hc key with ⟨t', d, IA, IB, h1, h3, g'⟩ | ⟨h1, h3⟩
        · have hb : BagRun (strip items) [.remove key] [.removed true] (strip (IA ++ IB)) := by
            refine .removeHit (d := d) (b1 := strip (IA ++ IB)) ?_ (.nil (List.Perm.refl _))
            rw [h3]
            simp only [strip, List.map_append, List.map_cons]
            exact List.perm_middle
          refine ⟨putAt s i (some ⟨t', some a, true⟩), .did (.removed true), h, putAt c i (.has _), ?_, ?_,
            fun ops obs c'' r => .used hci hb r⟩
          · simp [perform, useTable, hs, bind, M.andThen, lift, h1, pure, M.ret]
          · rw [show remember m (.use i (.remove key)) (.did (.removed true) : HlObs D) = putAt m i (some true) from
              hmm.symm]
            refine v.put ?_ ⟨rfl, t', a, _, rfl, g', rfl⟩
            rw [put_self]
            · exact v.own
            · show arrOf (s i) = some (a, t'.size)
              rw [hs, show t'.size = t.size from removefrom_size _ _ _ _ h1]
              rfl
        · have hb : BagRun (strip items) [.remove key] [.removed false] (strip items) :=
            .removeMiss h3 (.nil (List.Perm.refl _))
          refine ⟨s, .did (.removed false), h, putAt c i (.has (strip items)), ?_, ?_,
            fun ops obs c'' r => .used hci hb r⟩
          · simp [perform, useTable, hs, bind, M.andThen, lift, h1, pure, M.ret, put_self s hs]
          · rw [put_self c hci]
            exact v
      | lookup key =>
        left
        rcases lookup_good g hc key with ⟨d, h1, h3⟩ | ⟨h1, h3⟩
        · have hb : BagRun (strip items) [.lookup key] [.found (some d)] (strip items) :=
            .lookupHit h3 (.nil (List.Perm.refl _))
          refine ⟨s, .did (.found (some d)), h, putAt c i (.has (strip items)), ?_, ?_,
            fun ops obs c'' r => .used hci hb r⟩
          · simp [perform, useTable, hs, bind, M.andThen, lift, h1, pure, M.ret, put_self s hs]
          · rw [put_self c hci]
            exact v
        · have hb : BagRun (strip items) [.lookup key] [.found none] (strip items) :=
            .lookupMiss h3 (.nil (List.Perm.refl _))
          refine ⟨s, .did (.found none), h, putAt c i (.has (strip items)), ?_, ?_,
            fun ops obs c'' r => .used hci hb r⟩
          · simp [perform, useTable, hs, bind, M.andThen, lift, h1, pure, M.ret, put_self s hs]
          · rw [put_self c hci]
            exact v
  | destroy i =>
    left
    have hm : m i ≠ none := by simpa [permitted] using ok
    have hv := v.var i
    cases hci : c i with
    | fresh => rw [hci] at hv; exact absurd hv.1 hm
    | gone =>
      rw [hci] at hv
      refine ⟨putAt s i (some Obj.gone), .destroyed, h, putAt c i .gone, ?_, ?_,
        fun ops obs c'' r => .destroyed (by rw [hci]; exact fun e => by cases e) r⟩
      · simp [perform, destroy, hv.2, bind, M.andThen, free, pure, M.ret, Obj.gone]
      · refine v.put ?_ ⟨rfl, rfl⟩
        rw [put_self]
        · exact v.own
        · show arrOf (s i) = _
          rw [hv.2]
    | has bag =>
      rw [hci] at hv
      obtain ⟨-, t, a, items, hs, g, rfl⟩ := hv
      have hai : arrOf (s i) = some (a, t.size) := by rw [hs]; rfl
      obtain ⟨hany, w⟩ := v.own.free (i := i) hai
      refine ⟨putAt s i (some Obj.gone), .destroyed, { h with live := h.live.eraseP (fun b => b.id == a) },
        putAt c i .gone, ?_, v.put w ⟨rfl, rfl⟩,
        fun ops obs c'' r => .destroyed (by rw [hci]; exact fun e => by cases e) r⟩
      simp only [perform, destroy, hs, bind, M.andThen, free, hany, if_true, pure, M.ret, Obj.gone]

theorem client_ok (hc : ∀ a b, cmp a b = true ↔ a = b) {k : Kind} {page : Nat} (hp : 48 ≤ page) {o : Nat → Bool}
    (ops : List (HlOp K D)) : ∀ {m : Nat → Option Bool} {s : Vars K D} {c : Nat → Life K D} {h : Mem},
    HlInv k hash m s c h → (∀ i n, HlOp.create i n ∈ ops → 0 < n) →
    (∃ s' obs h' m' c', client k page hash cmp ops m s o h = .ok ((s', obs), h') ∧ HlInv k hash m' s' c' h' ∧
      HlRun c ops obs c') ∨
    (client k page hash cmp ops m s o h = .error (.fault .nullDeref) ∧ ∃ n, o n = false) := by
  induction ops with
  | nil => intro m s c h v _; exact Or.inl ⟨s, [], h, m, c, rfl, v, .nil⟩
  | cons op ops ih =>
    intro m s c h v hn
    have hn' : ∀ i n, HlOp.create i n ∈ ops → 0 < n := fun i n hm => hn i n (List.mem_cons_of_mem _ hm)
    by_cases ok : permitted m op = true
    · rcases perform_ok hc hp (o := o) v op (fun i n e => hn i n (e ▸ List.mem_cons_self ..)) ok with
        ⟨s1, ob, h1, c1, e1, v1, r1⟩ | ⟨e1, hf⟩
      · rcases ih v1 hn' with ⟨s2, obs, h2, m2, c2, e2, v2, r2⟩ | ⟨e2, hf⟩
        · refine Or.inl ⟨s2, ob :: obs, h2, m2, c2, ?_, v2, r1 _ _ _ r2⟩
          simp only [client, ok, if_true, bind, M.andThen, e1, e2, pure, M.ret]
        · refine Or.inr ⟨?_, hf⟩
          simp only [client, ok, if_true, bind, M.andThen, e1, e2]
      · refine Or.inr ⟨?_, hf⟩
        simp only [client, ok, if_true, bind, M.andThen, e1]
    · rcases ih (m := m) v hn' with ⟨s2, obs, h2, m2, c2, e2, v2, r2⟩ | ⟨e2, hf⟩
      · refine Or.inl ⟨s2, .skipped :: obs, h2, m2, c2, ?_, v2, ?_⟩
        · simp only [client, ok, Bool.false_eq_true, if_false, bind, M.andThen, e2, pure, M.ret]
        · cases op with
          | create i n =>
            have hm : m i = some true := by simpa [permitted] using ok
            have hv := v.var i
            cases hci : c i with
            | fresh => rw [hci] at hv; rw [hv.1] at hm; cases hm
            | gone => rw [hci] at hv; rw [hv.1] at hm; cases hm
            | has bag => exact .already hci r2
          | use i op =>
            have hm : m i ≠ some true := by simpa [permitted] using ok
            refine .unused (fun b e => ?_) r2
            have hv := v.var i
            rw [e] at hv
            exact hm hv.1
          | destroy i =>
            have hm : m i = none := by simpa [permitted] using ok
            have hv := v.var i
            cases hci : c i with
            | fresh => exact .nothing hci r2
            | gone => rw [hci] at hv; rw [hv.1] at hm; cases hm
            | has bag => rw [hci] at hv; rw [hv.1] at hm; cases hm
      · refine Or.inr ⟨?_, hf⟩
        simp only [client, ok, Bool.false_eq_true, if_false, bind, M.andThen, e2]

end Gotcha.Heap

namespace Gotcha

open Heap Spec HashProps
variable {K D : Type} {hash : K → BitVec 32} {cmp : K → K → Bool}

theorem start_inv (k : Kind) (hash : K → BitVec 32) :
    HlInv (D := D) k hash (fun _ => none) (fun _ => none) (fun _ => .fresh) {} where
  own := ⟨by simp, fun b hb => by simp at hb, fun e => by simp [arrOf] at e, fun b hb => by simp at hb,
    fun e => by simp [arrOf] at e⟩
  var := fun _ => ⟨rfl, rfl⟩

/-- C130.  Any number of hash tables, created, filled, searched, emptied and destroyed in any order and any number of
times, whichever allocations fail.  Either a table that has to grow gets no memory, and the process dies; or
everything is answered as by bags that know nothing of each other, and at the end every block on the heap is the array
of one table that the client has, which has exactly one, with the entries of that bag. -/
theorem C130_hash_library (hc : ∀ a b, cmp a b = true ↔ a = b) (k : Kind) {page : Nat} (hp : 48 ≤ page)
    (o : Nat → Bool) {ops : List (HlOp K D)} (hn : ∀ i n, HlOp.create i n ∈ ops → 0 < n) :
    (∃ s obs h c, client k page hash cmp ops (fun _ => none) (fun _ => none) o {} = .ok ((s, obs), h) ∧
      HlRun (fun _ => .fresh) ops obs c ∧
      (∀ i bag, c i = .has bag → ∃ t a, s i = some ⟨t, some a, true⟩ ∧ ⟨a, k, t.size⟩ ∈ h.live ∧
        (stored t).Perm bag ∧ ∀ j x, s j = some x → x.arr = some a → j = i) ∧
      (h.live.map Block.id).Nodup ∧
      ∀ b ∈ h.live, ∃ i bag x, c i = .has bag ∧ s i = some x ∧ x.arr = some b.id) ∨
    (client k page hash cmp ops (fun _ => none) (fun _ => none) o {} = .error (.fault .nullDeref) ∧
      ∃ n, o n = false) := by
  rcases client_ok hc hp (o := o) ops (start_inv k hash) hn with ⟨s, obs, h, m, c, e, v, r⟩ | he
  · refine Or.inl ⟨s, obs, h, c, e, r, ?_, v.own.nodup, ?_⟩
    · intro i bag hci
      have hv := v.var i
      rw [hci] at hv
      obtain ⟨-, t, a, items, hs, g, rfl⟩ := hv
      have hai : arrOf (s i) = some (a, t.size) := by rw [hs]; rfl
      refine ⟨t, a, hs, v.own.mem (i := i) hai, g.stored_perm, ?_⟩
      intro j x hj hx
      exact v.own.inj (i := j) (j := i) (n := x.tab.size) (by simp [hj, arrOf, hx]) hai
    · intro b hb
      obtain ⟨i, hi⟩ := v.own.only b hb
      have hv := v.var i
      cases hci : c i with
      | fresh => rw [hci] at hv; rw [hv.2] at hi; cases hi
      | gone => rw [hci] at hv; rw [hv.2] at hi; cases hi
      | has bag =>
        rw [hci] at hv
        obtain ⟨-, t, a, items, hs, g, rfl⟩ := hv
        rw [hs] at hi
        simp only [arrOf, Option.bind_some, Option.map_some, Option.some.injEq, Prod.mk.injEq] at hi
        exact ⟨i, _, _, hci, hs, by rw [← hi.1]⟩
  · exact Or.inr he

theorem Spec.HlRun.split {c' : Nat → Life K D} {b : List (HlOp K D)} {a : List (HlOp K D)} : ∀ {c obs},
    HlRun c (a ++ b) obs c' → ∃ c1 o1 o2, HlRun c a o1 c1 ∧ HlRun c1 b o2 c' := by
  induction a with
  | nil => intro c obs r; exact ⟨c, [], obs, .nil, r⟩
  | cons op a ih =>
    intro c obs r
    rw [List.cons_append] at r
    cases r with
    | made h r => obtain ⟨c1, o1, o2, r1, r2⟩ := ih r; exact ⟨c1, _, o2, .made h r1, r2⟩
    | failed h r => obtain ⟨c1, o1, o2, r1, r2⟩ := ih r; exact ⟨c1, _, o2, .failed h r1, r2⟩
    | already h r => obtain ⟨c1, o1, o2, r1, r2⟩ := ih r; exact ⟨c1, _, o2, .already h r1, r2⟩
    | used h hb r => obtain ⟨c1, o1, o2, r1, r2⟩ := ih r; exact ⟨c1, _, o2, .used h hb r1, r2⟩
    | unused h r => obtain ⟨c1, o1, o2, r1, r2⟩ := ih r; exact ⟨c1, _, o2, .unused h r1, r2⟩
    | destroyed h r => obtain ⟨c1, o1, o2, r1, r2⟩ := ih r; exact ⟨c1, _, o2, .destroyed h r1, r2⟩
    | nothing h r => obtain ⟨c1, o1, o2, r1, r2⟩ := ih r; exact ⟨c1, _, o2, .nothing h r1, r2⟩

theorem Spec.HlRun.destroys {c' : Nat → Life K D} {i bag} {js : List Nat} : ∀ {c obs},
    HlRun c (js.map .destroy) obs c' → c' i = .has bag → i ∉ js ∧ ∃ b, c i = .has b := by
  induction js with
  | nil => intro c obs r e; cases r; exact ⟨by simp, bag, e⟩
  | cons j js ih =>
    intro c obs r e
    rw [List.map_cons] at r
    cases r with
    | destroyed h r =>
      obtain ⟨h1, b, h2⟩ := ih r e
      by_cases hi : i = j
      · subst hi; rw [putAt_same] at h2; cases h2
      · rw [putAt_ne _ _ hi] at h2
        exact ⟨by simp [hi, h1], b, h2⟩
    | nothing h r =>
      obtain ⟨h1, b, h2⟩ := ih r e
      by_cases hi : i = j
      · subst hi; rw [h] at h2; cases h2
      · exact ⟨by simp [hi, h1], b, h2⟩

theorem Spec.HlRun.origin {c c' : Nat → Life K D} {ops : List (HlOp K D)} {obs} (r : HlRun c ops obs c') {i bag}
    (e : c' i = .has bag) : (∃ b, c i = .has b) ∨ ∃ n, HlOp.create i n ∈ ops := by
  induction r with
  | nil => exact Or.inl ⟨bag, e⟩
  | @made c j n ops obs c' h r ih =>
    by_cases hi : i = j
    · subst hi; exact Or.inr ⟨n, List.mem_cons_self ..⟩
    · rcases ih e with ⟨b, h2⟩ | ⟨n, hn⟩
      · rw [putAt_ne _ _ hi] at h2; exact Or.inl ⟨b, h2⟩
      · exact Or.inr ⟨n, List.mem_cons_of_mem _ hn⟩
  | @used c j b op ob b' ops obs c' h hb r ih =>
    rcases ih e with ⟨b, h2⟩ | ⟨n, hn⟩
    · by_cases hi : i = j
      · subst hi; exact Or.inl ⟨_, h⟩
      · rw [putAt_ne _ _ hi] at h2; exact Or.inl ⟨b, h2⟩
    · exact Or.inr ⟨n, List.mem_cons_of_mem _ hn⟩
  | @destroyed c j ops obs c' h r ih =>
    rcases ih e with ⟨b, h2⟩ | ⟨n, hn⟩
    · by_cases hi : i = j
      · subst hi; rw [putAt_same] at h2; cases h2
      · rw [putAt_ne _ _ hi] at h2; exact Or.inl ⟨b, h2⟩
    · exact Or.inr ⟨n, List.mem_cons_of_mem _ hn⟩
  | failed h r ih | already h r ih | unused h r ih | nothing h r ih =>
    rcases ih e with hb | ⟨n, hn⟩
    · exact Or.inl hb
    · exact Or.inr ⟨n, List.mem_cons_of_mem _ hn⟩

/-- C130, corollary: a client that has destroyed all its tables has no memory left. -/
theorem C130_no_leak (hc : ∀ a b, cmp a b = true ↔ a = b) (k : Kind) {page : Nat} (hp : 48 ≤ page)
    (o : Nat → Bool) {ops : List (HlOp K D)} (hn : ∀ i n, HlOp.create i n ∈ ops → 0 < n) (js : List Nat)
    (hjs : ∀ i n, HlOp.create i n ∈ ops → i ∈ js) {s obs h}
    (hr : client k page hash cmp (ops ++ js.map .destroy) (fun _ => none) (fun _ => none) o {} = .ok ((s, obs), h)) :
    h.live = [] := by
  have hn' : ∀ i n, HlOp.create i n ∈ ops ++ js.map .destroy → 0 < n := by
    intro i n hm
    rcases List.mem_append.1 hm with hm | hm
    · exact hn i n hm
    · simp at hm
  rcases C130_hash_library (hash := hash) hc k hp o hn' with ⟨s', obs', h', c, e, r, -, -, only⟩ | ⟨e, -⟩
  · rw [hr] at e
    cases e
    refine List.eq_nil_iff_forall_not_mem.2 fun b hb => ?_
    obtain ⟨i, bag, x, hci, -⟩ := only b hb
    obtain ⟨c1, o1, o2, r1, r2⟩ := HlRun.split r
    obtain ⟨hj, b1, hb1⟩ := HlRun.destroys r2 hci
    rcases HlRun.origin r1 hb1 with ⟨b2, hb2⟩ | ⟨n, hn⟩
    · cases hb2
    · exact hj (hjs i n hn)
  · rw [hr] at e
    cases e

/-- C130: a destroyed table is not for use. -/
theorem C130_gone (k : Kind) (page : Nat) (hash : K → BitVec 32) (cmp : K → K → Bool) (s : Vars K D) (i : Nat) (o h) {x}
    (hx : s i = some x) {s' ob h'} (hd : perform k page hash cmp s (.destroy i) o h = .ok ((s', ob), h')) :
    (∀ op, perform k page hash cmp s' (.use i op) o h' = .error (.fault .nullDeref)) ∧
    perform k page hash cmp s' (.destroy i) o h' = .ok ((s', ob), h') := by
  simp only [perform, hx, destroy, bind, M.andThen] at hd
  cases hf : free x.arr o h with
  | error e => rw [hf] at hd; cases hd
  | ok r =>
    rw [hf] at hd
    simp only [pure, M.ret, Except.ok.injEq, Prod.mk.injEq] at hd
    obtain ⟨⟨rfl, rfl⟩, rfl⟩ := hd
    constructor
    · intro op
      simp [perform, putAt_same, useTable, bind, M.andThen, fail]
    · simp [perform, putAt_same, destroy, bind, M.andThen, free, pure, M.ret, put_put]

/-- C130, corollary: with memory enough the client never fails. -/
theorem C130_no_fault (hc : ∀ a b, cmp a b = true ↔ a = b) (k : Kind) {page : Nat} (hp : 48 ≤ page)
    {ops : List (HlOp K D)} (hn : ∀ i n, HlOp.create i n ∈ ops → 0 < n) :
    ∃ r, client k page hash cmp ops (fun _ => none) (fun _ => none) (fun _ => true) {} = .ok r := by
  rcases C130_hash_library (hash := hash) hc k hp (fun _ => true) hn with ⟨s, obs, h, c, e, -⟩ | ⟨-, n, hf⟩
  · exact ⟨_, e⟩
  · cases hf

namespace Demo

/-- Two tables with the same keys; one of them grows, is destroyed twice and is created again. -/
def opsTables : List (HlOp Nat Nat) :=
  [ .create 0 1, .create 1 1, .use 0 (.add 7 70), .use 0 (.add 8 80), .use 0 (.add 7 71), .use 1 (.add 7 75),
    .use 0 (.lookup 8), .use 1 (.lookup 8), .use 0 (.remove 8), .use 0 (.lookup 8), .use 1 (.lookup 7),
    .destroy 0, .destroy 0, .use 0 (.lookup 7), .create 0 1, .use 0 (.lookup 7), .use 1 (.lookup 7) ]

theorem tables_run : (match client .newBindings 48 (BitVec.ofNat 32) (fun a b : Nat => a == b) opsTables
      (fun _ => none) (fun _ => none) (fun _ => true) {} with
    | .ok ((_, obs), h) => decide (obs = [.created true, .created true, .did .added, .did .added, .did .added,
        .did .added, .did (.found (some 80)), .did (.found none), .did (.removed true), .did (.found none),
        .did (.found (some 75)), .destroyed, .destroyed, .skipped, .created true, .did (.found none),
        .did (.found (some 75))]) && decide (h.live.length = 2) && decide (h.calls = 5)
    | .error _ => false) = true := by
  decide +kernel

theorem tables_end : (match client .newBindings 48 (BitVec.ofNat 32) (fun a b : Nat => a == b)
      (opsTables ++ [0, 1].map .destroy) (fun _ => none) (fun _ => none) (fun _ => true) {} with
    | .ok _ => true
    | .error _ => false) = true := by
  decide +kernel

/-- The third allocation, for the growth of the first table, fails. -/
theorem tables_crash : (match client .newBindings 48 (BitVec.ofNat 32) (fun a b : Nat => a == b) opsTables
      (fun _ => none) (fun _ => none) (fun n => n != 2) {} with
    | .error (.fault .nullDeref) => true
    | _ => false) = true := by
  decide +kernel

theorem tables_sizes : ∀ i n, HlOp.create i n ∈ opsTables → 0 < n := by
  intro i n h
  simp only [opsTables, List.mem_cons, HlOp.create.injEq, reduceCtorEq, List.not_mem_nil, or_false, false_or] at h
  omega

theorem tables_own : ∀ i n, HlOp.create i n ∈ opsTables → i ∈ [0, 1] := by
  intro i n h
  simp only [opsTables, List.mem_cons, HlOp.create.injEq, reduceCtorEq, List.not_mem_nil, or_false, false_or] at h
  simp only [List.mem_cons, List.not_mem_nil, or_false]
  omega

end Demo

/-- The hypotheses hold of the two tables, which leave nothing behind. -/
example : ∃ s obs h, client .newBindings 48 (BitVec.ofNat 32) (fun a b : Nat => a == b)
      (Demo.opsTables ++ [0, 1].map .destroy) (fun _ => none) (fun _ => none) (fun _ => true) {} = .ok ((s, obs), h) ∧
    h.live = [] := by
  have hq := Demo.tables_end
  cases hr : client .newBindings 48 (BitVec.ofNat 32) (fun a b : Nat => a == b)
      (Demo.opsTables ++ [0, 1].map .destroy) (fun _ => none) (fun _ => none) (fun _ => true) {} with
  | error e => rw [hr] at hq; cases hq
  | ok r =>
    obtain ⟨⟨s, obs⟩, h⟩ := r
    exact ⟨s, obs, h, rfl, C130_no_leak (by simp) .newBindings (by decide) _ Demo.tables_sizes [0, 1] Demo.tables_own hr⟩

/-- C130, the limits: a client that creates a table it has already loses the memory of the first one. -/
theorem C130_create_twice_refuted :
    ¬ ∀ (s : Vars Nat Nat) (ob : HlObs Nat) (h : Mem) (s' ob' h' s'' ob'' h''),
      perform .newBindings 48 (BitVec.ofNat 32) (fun a b : Nat => a == b) (fun _ => none) (.create 0 1) (fun _ => true)
        {} = .ok ((s, ob), h) →
      perform .newBindings 48 (BitVec.ofNat 32) (fun a b : Nat => a == b) s (.create 0 1) (fun _ => true) h =
        .ok ((s', ob'), h') →
      perform .newBindings 48 (BitVec.ofNat 32) (fun a b : Nat => a == b) s' (.destroy 0) (fun _ => true) h' =
        .ok ((s'', ob''), h'') → h''.live = [] := by
  intro hall
  have := hall _ _ _ _ _ _ _ _ _ rfl rfl rfl
  cases this

end Gotcha
