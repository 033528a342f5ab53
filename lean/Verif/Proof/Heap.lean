import Verif.Model.Heap
import Verif.Model.Oom
import Verif.Proof.Protect
/-
The engine with its heap against the engine of `Model/Oom`, together with the ownership of blocks.
-/
namespace Gotcha.Heap
open Gotcha
open Gotcha.Prot (Ret)

variable {α β α' β' : Type}

/-- The same outcome, without a bad free; results and final heap are related by `R`. -/
def Out (R : α → α' → Mem → Prop) : Except Bad (α × Mem) → Except Fault (α' × Nat) → Prop
  | .error .badFree, _ => False
  | .error (.fault f), r => r = .error f
  | .ok (x, h'), r => ∃ x', r = .ok (x', h'.calls) ∧ R x x' h'

/-- From a heap satisfying `P`, the two computations have the same outcome and the first frees nothing it
may not free; results and final heap are related by `R`. -/
def Tri (P : Mem → Prop) (m : M α) (m' : Oom.M α') (R : α → α' → Mem → Prop) : Prop :=
  ∀ o h, P h → Out R (m o h) (m' o h.calls)

theorem bind_ok {m : M α} {f : α → M β} {o h x h'} (e : m o h = .ok (x, h')) :
    (m >>= f) o h = f x o h' := by
  show M.andThen m f o h = _
  unfold M.andThen
  rw [e]

theorem bind_err {m : M α} {f : α → M β} {o h e} (he : m o h = .error e) :
    (m >>= f) o h = .error e := by
  show M.andThen m f o h = _
  unfold M.andThen
  rw [he]

theorem obind_ok {m : Oom.M α} {f : α → Oom.M β} {o h x h'} (e : m o h = .ok (x, h')) :
    (m >>= f) o h = f x o h' := by
  show Oom.M.andThen m f o h = _
  unfold Oom.M.andThen
  rw [e]

theorem obind_err {m : Oom.M α} {f : α → Oom.M β} {o h e} (he : m o h = .error e) :
    (m >>= f) o h = .error e := by
  show Oom.M.andThen m f o h = _
  unfold Oom.M.andThen
  rw [he]

/-- The same with equal results. -/
def TriE (P : Mem → Prop) (m : M α) (m' : Oom.M α) (Q : α → Mem → Prop) : Prop :=
  Tri P m m' (fun x x' h => x = x' ∧ Q x h)

theorem Tri.bind {P : Mem → Prop} {m : M α} {m' : Oom.M α'} {R : α → α' → Mem → Prop}
    {f : α → M β} {f' : α' → Oom.M β'} {S : β → β' → Mem → Prop} (h1 : Tri P m m' R)
    (h2 : ∀ x x', Tri (R x x') (f x) (f' x') S) : Tri P (m >>= f) (m' >>= f') S := by
  intro o h hP
  have a := h1 o h hP
  cases hm : m o h with
  | error e =>
    rw [hm] at a
    rw [bind_err hm]
    cases e with
    | badFree => exact a
    | fault e => exact obind_err a
  | ok y =>
    rw [hm] at a
    obtain ⟨x', e', r⟩ := a
    rw [bind_ok (x := y.1) (h' := y.2) hm, obind_ok e']
    exact h2 y.1 x' o y.2 r

theorem TriE.bind {P : Mem → Prop} {m : M α} {m' : Oom.M α} {Q : α → Mem → Prop}
    {f : α → M β} {f' : α → Oom.M β'} {S : β → β' → Mem → Prop} (h1 : TriE P m m' Q)
    (h2 : ∀ x, Tri (Q x) (f x) (f' x) S) : Tri P (m >>= f) (m' >>= f') S := by
  refine Tri.bind h1 fun x x' o h hq => ?_
  obtain ⟨rfl, hq⟩ := hq
  exact h2 x o h hq

theorem Tri.pre {P P' : Mem → Prop} {m : M α} {m' : Oom.M α'} {R : α → α' → Mem → Prop}
    (h : Tri P m m' R) (hp : ∀ h, P' h → P h) : Tri P' m m' R := fun o x hx => h o x (hp x hx)

theorem Tri.post {P : Mem → Prop} {m : M α} {m' : Oom.M α'} {R R' : α → α' → Mem → Prop}
    (h : Tri P m m' R) (hr : ∀ x x' h, R x x' h → R' x x' h) : Tri P m m' R' := by
  intro o x hx
  have a := h o x hx
  cases hm : m o x with
  | error e =>
    rw [hm] at a
    cases e with
    | badFree => exact a
    | fault e => exact a
  | ok y =>
    rw [hm] at a
    obtain ⟨x', e', r⟩ := a
    exact ⟨x', e', hr _ _ _ r⟩

theorem tri_pure {P : Mem → Prop} {x : α} {x' : α'} {R : α → α' → Mem → Prop}
    (h : ∀ h, P h → R x x' h) : Tri P (pure x : M α) (pure x' : Oom.M α') R :=
  fun _ k hk => ⟨x', rfl, h k hk⟩

theorem triE_pure {P : Mem → Prop} {x : α} {Q : α → Mem → Prop} (h : ∀ h, P h → Q x h) :
    TriE P (pure x : M α) (pure x : Oom.M α) Q := tri_pure fun k hk => ⟨rfl, h k hk⟩

theorem tri_fail {P : Mem → Prop} {f : Fault} {R : α → α' → Mem → Prop} :
    Tri P (fail f : M α) (Oom.fail f : Oom.M α') R := fun _ _ _ => rfl

theorem tri_false {P : Mem → Prop} {m : M α} {m' : Oom.M α'} {R : α → α' → Mem → Prop}
    (h : ∀ h, ¬ P h) : Tri P m m' R := fun _ k hk => (h k hk).elim

/-- The rest may use a fact that the precondition implies. -/
theorem tri_have {P : Mem → Prop} {C : Prop} {m : M α} {m' : Oom.M α'} {R : α → α' → Mem → Prop}
    (hc : ∀ h, P h → C) (h : C → Tri P m m' R) : Tri P m m' R := fun o k hk => h (hc k hk) o k hk

/-- A step outside the heap. -/
theorem tri_lift {P : Mem → Prop} {Q : α → Prop} {e : Except Fault α} (hr : Ret Q e)
    {f : α → M β} {f' : α → Oom.M β'} {S : β → β' → Mem → Prop}
    (h2 : ∀ x, Q x → Tri P (f x) (f' x) S) : Tri P (lift e >>= f) (Oom.lift e >>= f') S := by
  intro o h hP
  cases he : e with
  | error g => exact rfl
  | ok x => exact h2 x (hr x he) o h hP

theorem tri_any {P : Mem → Prop} {e : Except Fault α}
    {f : α → M β} {f' : α → Oom.M β'} {S : β → β' → Mem → Prop}
    (h2 : ∀ x, Tri P (f x) (f' x) S) : Tri P (lift e >>= f) (Oom.lift e >>= f') S :=
  tri_lift (Q := fun _ => True) (fun _ _ => trivial) (fun x _ => h2 x)

theorem tri_ite {P : Mem → Prop} {c : Prop} [Decidable c] {m1 m2 : M α} {m1' m2' : Oom.M α'}
    {R : α → α' → Mem → Prop} (h1 : c → Tri P m1 m1' R) (h2 : ¬ c → Tri P m2 m2' R) :
    Tri P (if c then m1 else m2) (if c then m1' else m2') R := by
  by_cases h : c
  · rw [if_pos h, if_pos h]; exact h1 h
  · rw [if_neg h, if_neg h]; exact h2 h

/-- A choice followed by common code. -/
theorem Rule.ite {P : Mem → Prop} {c : Prop} [Decidable c] {m1 m2 : M α} {m1' m2' : Oom.M α}
    {Q : α → Mem → Prop} {f : α → M β} {f' : α → Oom.M β'} {S : β → β' → Mem → Prop}
    (h1 : c → TriE P m1 m1' Q) (h2 : ¬ c → TriE P m2 m2' Q) (h3 : ∀ x, Tri (Q x) (f x) (f' x) S) :
    Tri P (if c then m1 >>= f else m2 >>= f) (if c then m1' >>= f' else m2' >>= f') S :=
  tri_ite (fun c => TriE.bind (h1 c) h3) (fun c => TriE.bind (h2 c) h3)

/-- The same with two steps in the second branch. -/
theorem Rule.ite2 {γ : Type} {P : Mem → Prop} {c : Prop} [Decidable c] {m1 : M α} {m1' : Oom.M α}
    {n : M γ} {g : γ → M α} {n' : Oom.M γ} {g' : γ → Oom.M α}
    {Q : α → Mem → Prop} {f : α → M β} {f' : α → Oom.M β'} {S : β → β' → Mem → Prop}
    (h1 : c → TriE P m1 m1' Q) (h2 : ¬ c → TriE P (n >>= g) (n' >>= g') Q)
    (h3 : ∀ x, Tri (Q x) (f x) (f' x) S) :
    Tri P (if c then m1 >>= f else n >>= fun x => g x >>= f)
      (if c then m1' >>= f' else n' >>= fun x => g' x >>= f') S := by
  have a : (n >>= fun x => g x >>= f) = ((n >>= g) >>= f) := by
    funext o h
    show M.andThen _ _ _ _ = M.andThen (M.andThen _ _) _ _ _
    unfold M.andThen
    cases n o h <;> rfl
  have b : (n' >>= fun x => g' x >>= f') = ((n' >>= g') >>= f') := by
    funext o h
    show Oom.M.andThen _ _ _ _ = Oom.M.andThen (Oom.M.andThen _ _) _ _ _
    unfold Oom.M.andThen
    cases n' o h <;> rfl
  rw [a, b]
  exact tri_ite (fun c => TriE.bind (h1 c) h3) (fun c => TriE.bind (h2 c) h3)

/-! ### blocks -/

/-- What the state says about the number of kept blocks. -/
structure Dims where
  libs : Nat
  tools : Nat
  binds : Nat
  ini : Bool

/-- The numbers of records, tools and internal bindings; whether GOTCHA is initialised. -/
def dims (s : State) : Dims := ⟨s.libs.length, s.tools.store.length, s.binds.length, s.inited⟩

/-- The elements of an array of internal bindings. -/
def Block.elems (b : Block) : Nat := if b.kind = .bindArr then b.len else 0

/-- A block that stays allocated. -/
def Stays (b : Block) : Prop := b.kind ≠ .newBindings ∧ ∀ w, b.kind ≠ .table w

/-- Not the array of a global table. -/
def Stays' (b : Block) : Prop := ∀ w, b.kind ≠ .table w

instance (b : Block) : Decidable (Stays' b) :=
  decidable_of_iff (b.kind ≠ .table .libs ∧ b.kind ≠ .table .funs ∧ b.kind ≠ .table .missing)
    ⟨fun h w => by cases w; exacts [h.1, h.2.1, h.2.2], fun h => ⟨h _, h _, h _⟩⟩

/-- The allocated blocks are `T` and blocks that stay, those of `B` among them, in the numbers of `d`. -/
structure Raw (d : Dims) (T B : List Block) (h : Mem) : Prop where
  ex : ∃ R, h.live.Perm (T ++ R) ∧ (∀ b ∈ B, b ∈ R) ∧ (∀ b ∈ R, Stays b) ∧
    R.countP (fun b => b.kind = .libRec) = d.libs ∧ R.countP (fun b => b.kind = .tool) = d.tools ∧
    (R.map Block.elems).sum = d.binds ∧
    R.countP (fun b => b.kind = .bindRec) = R.countP (fun b => b.kind = .bindHash)
  nodup : (h.live.map Block.id).Nodup
  lt : ∀ b ∈ h.live, b.id < h.calls

/-- The array of a table, as a list of blocks. -/
def own (a : Option Nat) (k : Kind) (n : Nat) : List Block :=
  match a with
  | none => []
  | some i => [⟨i, k, n⟩]

theorem Raw.perm {d : Dims} {T T' B : List Block} {h : Mem} (r : Raw d T B h) (p : T.Perm T') :
    Raw d T' B h := by
  obtain ⟨R, h1, h2⟩ := r.ex
  exact ⟨⟨R, h1.trans (p.append_right R), h2⟩, r.nodup, r.lt⟩

theorem Raw.arr {d : Dims} {T B : List Block} {h : Mem} (r : Raw d T B h) (f) :
    Raw d T B { h with arr := f } := ⟨r.ex, r.nodup, r.lt⟩

theorem Raw.some {d : Dims} {T B : List Block} {h : Mem} (r : Raw d T B h) (k n) :
    Raw d (⟨h.calls, k, n⟩ :: T) B
      { h with calls := h.calls + 1, live := ⟨h.calls, k, n⟩ :: h.live } := by
  obtain ⟨R, h1, h2⟩ := r.ex
  refine ⟨⟨R, by simpa using h1, h2⟩, ?_, ?_⟩
  · show (_ :: _).Nodup
    rw [List.nodup_cons]
    refine ⟨?_, r.nodup⟩
    intro hm
    obtain ⟨b, hb, e⟩ := List.mem_map.1 hm
    have := r.lt b hb
    rw [e] at this
    exact Nat.lt_irrefl _ this
  · intro b hb
    rcases List.mem_cons.1 hb with rfl | hb
    · exact Nat.lt_succ_self _
    · exact Nat.lt_succ_of_lt (r.lt b hb)

theorem Raw.none {d : Dims} {T B : List Block} {h : Mem} (r : Raw d T B h) :
    Raw d T B { h with calls := h.calls + 1 } :=
  ⟨r.ex, r.nodup, fun b hb => Nat.lt_succ_of_lt (r.lt b hb)⟩

theorem eraseP_id {l : List Block} {b : Block} (nd : (l.map Block.id).Nodup) (hb : b ∈ l) :
    l.eraseP (fun x => x.id == b.id) = l.erase b := by
  induction l with
  | nil => cases hb
  | cons c l ih =>
    rw [List.map_cons, List.nodup_cons] at nd
    by_cases e : c = b
    · subst e; simp
    · have hb' : b ∈ l := by
        rcases List.mem_cons.1 hb with rfl | h
        · exact (e rfl).elim
        · exact h
      have hne : c.id ≠ b.id := by
        intro h
        exact nd.1 (h ▸ List.mem_map_of_mem hb')
      rw [List.eraseP_cons_of_neg (by simpa using hne), List.erase_cons_tail (by simpa using e),
        ih nd.2 hb']

theorem Raw.drop {d : Dims} {T B : List Block} {h : Mem} {b : Block} (r : Raw d (b :: T) B h) :
    h.live.any (fun x => x.id == b.id) = true ∧
    Raw d T B { h with live := h.live.eraseP (fun x => x.id == b.id) } := by
  obtain ⟨R, h1, h2⟩ := r.ex
  have hb : b ∈ h.live := h1.mem_iff.2 (by simp)
  have e := eraseP_id r.nodup hb
  refine ⟨List.any_eq_true.2 ⟨b, hb, by simp⟩, ⟨R, ?_, h2⟩, ?_, ?_⟩
  · show (h.live.eraseP _).Perm _
    rw [e]
    have := h1.erase b
    simpa using this
  · show ((h.live.eraseP _).map _).Nodup
    exact r.nodup.sublist ((List.eraseP_sublist).map _)
  · intro x hx
    exact r.lt x (List.mem_of_mem_eraseP hx)

theorem tri_alloc {P : Mem → Prop} {d : Dims} {T B : List Block} (k n)
    {C : Mem → Prop} (hC : ∀ h c l, C h → C { h with calls := c, live := l })
    (hP : ∀ h, P h → Raw d T B h ∧ C h)
    {f : Option Nat → M β} {f' : Bool → Oom.M β'} {S : β → β' → Mem → Prop}
    (h1 : ∀ i, Tri (fun h => Raw d (⟨i, k, n⟩ :: T) B h ∧ C h) (f (some i)) (f' true) S)
    (h2 : Tri (fun h => Raw d T B h ∧ C h) (f none) (f' false) S) :
    Tri P (alloc k n >>= f) (Oom.alloc >>= f') S := by
  intro o h hp
  obtain ⟨r, c⟩ := hP h hp
  have e' : (Oom.alloc >>= f') o h.calls = f' (o h.calls) o (h.calls + 1) := rfl
  rw [e']
  cases ho : o h.calls with
  | true =>
    rw [bind_ok (x := .some h.calls)
      (h' := { h with calls := h.calls + 1, live := ⟨h.calls, k, n⟩ :: h.live })
      (by unfold alloc; rw [if_pos ho])]
    exact h1 h.calls o _ ⟨r.some k n, hC _ _ _ c⟩
  | false =>
    rw [bind_ok (x := .none) (h' := { h with calls := h.calls + 1 })
      (by unfold alloc; rw [ho]; rfl)]
    exact h2 o _ ⟨r.none, hC h (h.calls + 1) h.live c⟩

theorem tri_free {P : Mem → Prop} {d : Dims} {T B : List Block} {b : Block}
    {C : Mem → Prop} (hC : ∀ h c l, C h → C { h with calls := c, live := l })
    (hP : ∀ h, P h → Raw d (b :: T) B h ∧ C h)
    {f : Unit → M β} {m' : Oom.M β'} {S : β → β' → Mem → Prop}
    (h1 : Tri (fun h => Raw d T B h ∧ C h) (f ()) m' S) :
    Tri P (free (some b.id) >>= f) m' S := by
  intro o h hp
  obtain ⟨r, c⟩ := hP h hp
  obtain ⟨ha, r'⟩ := r.drop
  have e : (free (some b.id) >>= f) o h =
      f () o { h with live := h.live.eraseP (fun x => x.id == b.id) } := by
    refine bind_ok ?_
    unfold free
    simp only [ha, if_true]
  rw [e]
  exact h1 o _ ⟨r', hC _ h.calls _ c⟩

theorem Oom.lift_pure (e : Except Fault α) : Oom.lift e = (Oom.lift e >>= fun x => pure x) := by
  funext o k
  cases e <;> rfl

theorem tri_need {d : Dims} {T B : List Block} (k n)
    {C : Mem → Prop} (hC : ∀ h c l, C h → C { h with calls := c, live := l }) :
    Tri (fun h => Raw d T B h ∧ C h) (need k n) Oom.need
      (fun i _ h => Raw d (⟨i, k, n⟩ :: T) B h ∧ C h) :=
  tri_alloc k n hC (fun _ h => h) (fun _ => tri_pure fun _ h => h) tri_fail

theorem arr_stable {A : Which → Option Nat} : ∀ (h : Mem) c l, h.arr = A →
    ({ h with calls := c, live := l } : Mem).arr = A := fun _ _ _ h => h

section Table
variable {K D : Type}

theorem linkFront_length (slots : List (Entry K D)) (head i) :
    (HTable.linkFront slots head i).length = slots.length := by
  unfold HTable.linkFront
  split <;> simp

theorem insert_size (t : HTable K D) (key : K) (data : D) (hv) :
    Ret (fun t' : HTable K D => t'.size = t.size) (t.insert key data hv) := by
  unfold HTable.insert
  refine Prot.Ret.ite Prot.Ret.err ?_
  refine Prot.Ret.ok ?_
  show (HTable.linkFront _ _ _).length = _
  rw [linkFront_length]
  split <;> simp

theorem reinsert_size (es : List (Entry K D)) : ∀ t : HTable K D,
    Ret (fun t' : HTable K D => t'.size = t.size) (HTable.reinsert es t) := by
  induction es with
  | nil => intro t; exact Prot.Ret.ok rfl
  | cons e es ih =>
    intro t
    unfold HTable.reinsert
    split
    · split
      · split
        · rename_i t1 h1
          intro r hr
          exact (ih _ r hr).trans (insert_size _ _ _ _ _ h1)
        · exact Prot.Ret.err
      · exact Prot.Ret.err
    · exact ih t

theorem grow_size (t : HTable K D) (n) : Ret (fun t' : HTable K D => t'.size = n) (t.grow n) := by
  intro r hr
  have := reinsert_size _ _ r hr
  rw [this]
  simp [HTable.blank, HTable.size]

theorem removefrom_size (t : HTable K D) (hv eq) :
    Ret (fun x : HTable K D × Bool => x.1.size = t.size) (t.removefrom hv eq) := by
  unfold HTable.removefrom
  split
  · exact Prot.Ret.err
  · exact Prot.Ret.ok rfl
  · split
    · exact Prot.Ret.err
    · refine Prot.Ret.ok ?_
      show (HTable.unlink _ _ _).length = _
      unfold HTable.unlink
      split <;> split <;> simp

theorem addto_tri {d : Dims} {T B : List Block} {A : Which → Option Nat} (k : Kind) (t : HTable K D)
    (a : Option Nat) (key : K) (data : D) (hv) :
    Tri (fun h => Raw d (own a k t.size ++ T) B h ∧ h.arr = A) (addto k t a key data hv)
      (Oom.addto t key data hv)
      (fun x x' h => x.1 = x' ∧ (Raw d (own x.2 k x.1.size ++ T) B h ∧ h.arr = A) ∧
        (x.2 = none → a = none ∧ x.1.size = t.size)) := by
  refine tri_any fun n => tri_ite (fun _ => ?_) (fun _ => ?_)
  · refine Tri.bind (R := fun x x' h => (x.1 = x' ∧ x.2 ≠ none ∧ x.1.size = n) ∧
      Raw d (own x.2 k n ++ T) B h ∧ h.arr = A) ?_ ?_
    · refine Tri.bind (tri_need k n arr_stable) fun i _ => ?_
      rw [Oom.lift_pure]
      refine tri_lift (grow_size t n) fun t' ht => ?_
      cases a with
      | none => exact tri_pure fun h hh => ⟨⟨rfl, by simp, ht⟩, hh⟩
      | some j =>
        refine tri_free (b := ⟨j, k, t.size⟩) (d := d) (T := ⟨i, k, n⟩ :: T) (B := B) arr_stable
          (fun h hh => ⟨hh.1.perm (List.Perm.swap _ _ _), hh.2⟩) ?_
        exact tri_pure fun h hh => ⟨⟨rfl, by simp, ht⟩, hh⟩
    · intro x x'
      obtain ⟨t1, a1⟩ := x
      refine tri_have (C := t1 = x' ∧ a1 ≠ none ∧ t1.size = n) (fun h hh => hh.1) fun hx => ?_
      obtain ⟨rfl, h2, h3⟩ := hx
      rw [Oom.lift_pure]
      refine tri_lift (insert_size t1 key data hv) fun t2 ht => ?_
      refine tri_pure fun h hh => ⟨rfl, ?_, fun e => (h2 e).elim⟩
      show Raw d (own a1 k t2.size ++ T) B h ∧ h.arr = A
      rw [ht, h3]
      exact hh.2
  · rw [Oom.lift_pure]
    refine tri_lift (insert_size t key data hv) fun t2 ht => ?_
    refine tri_pure fun h hh => ⟨rfl, ?_, fun e => ⟨e, ht⟩⟩
    show Raw d (own a k t2.size ++ T) B h ∧ h.arr = A
    rw [ht]
    exact hh

end Table

/-! ### the invariant -/

/-- The sizes of the three tables. -/
def sizes (s : State) : Which → Nat
  | .libs => s.libTab.size
  | .funs => s.funTab.size
  | .missing => s.notFound.size

/-- The arrays of the three tables. -/
def tabs (sz : Which → Nat) (A : Which → Option Nat) : List Block :=
  own (A .libs) (.table .libs) (sz .libs) ++ (own (A .funs) (.table .funs) (sz .funs) ++
    own (A .missing) (.table .missing) (sz .missing))

/-- The allocated blocks are the arrays of the three tables, `T`, and blocks that stay. -/
structure Inv (s : State) (T B : List Block) (h : Mem) : Prop where
  raw : Raw (dims s) (tabs (sizes s) h.arr ++ T) B h
  nul : ∀ w, h.arr w = none → sizes s w = 0
  ini : (dims s).ini = true

/-- States that own the same. -/
structure Sm (s s' : State) : Prop where
  dims : dims s' = dims s
  sizes : sizes s' = sizes s

theorem Sm.refl (s : State) : Sm s s := ⟨rfl, rfl⟩

theorem Sm.trans {s s' s'' : State} (h : Sm s s') (h' : Sm s' s'') : Sm s s'' :=
  ⟨h'.dims.trans h.dims, h'.sizes.trans h.sizes⟩

theorem Inv.sm {s s' : State} {T B h} (i : Inv s T B h) (e : Sm s s') : Inv s' T B h := by
  refine ⟨?_, ?_, ?_⟩
  · rw [e.dims, e.sizes]; exact i.raw
  · rw [e.sizes]; exact i.nul
  · rw [e.dims]; exact i.ini

theorem Inv.perm {s : State} {T T' B h} (i : Inv s T B h) (p : T.Perm T') : Inv s T' B h :=
  ⟨i.raw.perm (p.append_left _), i.nul, i.ini⟩

/-- The other two tables. -/
def others (sz : Which → Nat) (A : Which → Option Nat) : Which → List Block
  | .libs => own (A .funs) (.table .funs) (sz .funs) ++ own (A .missing) (.table .missing) (sz .missing)
  | .funs => own (A .libs) (.table .libs) (sz .libs) ++ own (A .missing) (.table .missing) (sz .missing)
  | .missing => own (A .libs) (.table .libs) (sz .libs) ++ own (A .funs) (.table .funs) (sz .funs)

theorem tabs_perm (sz A w) :
    (tabs sz A).Perm (own (A w) (.table w) (sz w) ++ others sz A w) := by
  cases w with
  | libs => exact List.Perm.refl _
  | funs =>
    simp only [tabs, others]
    rw [← List.append_assoc, ← List.append_assoc]
    exact List.perm_append_comm.append_right _
  | missing =>
    simp only [tabs, others]
    rw [← List.append_assoc]
    exact List.perm_append_comm

theorem others_congr {sz sz' : Which → Nat} {A A' : Which → Option Nat} {w : Which}
    (hs : ∀ x, x ≠ w → sz' x = sz x) (hA : ∀ x, x ≠ w → A' x = A x) :
    others sz' A' w = others sz A w := by
  cases w <;> simp only [others] <;> rw [hs, hs, hA, hA] <;> simp

theorem addtoGlobal_tri {K D : Type} {T B : List Block} {s : State} (w : Which) (t : HTable K D)
    (key : K) (data : D) (hv) (ht : sizes s w = t.size) :
    TriE (Inv s T B) (addtoGlobal w t key data hv) (Oom.addto t key data hv)
      (fun t1 h => ∀ s', dims s' = dims s →
        (∀ x, sizes s' x = if x = w then t1.size else sizes s x) → Inv s' T B h) := by
  intro o h hi
  have h1 := addto_tri (d := dims s) (T := others (sizes s) h.arr w ++ T) (B := B) (A := h.arr)
    (.table w) t (h.arr w) key data hv o h
    ⟨hi.raw.perm (by
      have := (tabs_perm (sizes s) h.arr w).append_right T
      rw [List.append_assoc, ht] at this
      exact this), rfl⟩
  have e : addtoGlobal w t key data hv o h =
      (addto (.table w) t (h.arr w) key data hv >>= fun x => setArr w x.2 >>= fun _ => pure x.1) o h :=
    rfl
  rw [e]
  cases hm : addto (.table w) t (h.arr w) key data hv o h with
  | error e =>
    rw [hm] at h1
    rw [bind_err hm]
    cases e with
    | badFree => exact h1
    | fault e => exact h1
  | ok y =>
    obtain ⟨⟨t1, a1⟩, h'⟩ := y
    rw [hm] at h1
    obtain ⟨x', e', ⟨rfl, ⟨r, hA⟩, hn⟩⟩ := h1
    rw [bind_ok hm, e']
    refine ⟨t1, rfl, rfl, fun s' hd hs => ⟨?_, ?_, by rw [hd]; exact hi.ini⟩⟩
    · rw [hd]
      refine Raw.perm (Raw.arr r _) ?_
      refine List.Perm.symm ((tabs_perm (sizes s') _ w).append_right T |>.trans ?_)
      rw [List.append_assoc, others_congr (sz := sizes s) (A := h.arr)
        (fun x hx => by rw [hs, if_neg hx]) (fun x hx => by simp [hx, hA])]
      rw [hs, if_pos rfl]
      simp only [if_true]
      exact List.Perm.refl _
    · intro x hx
      rw [hs]
      dsimp only at hx
      by_cases e : x = w
      · subst e
        rw [if_pos rfl] at hx ⊢
        obtain ⟨h3, h4⟩ := hn hx
        have := hi.nul _ h3
        rw [ht] at this
        exact h4.trans this
      · rw [if_neg e] at hx ⊢
        rw [hA] at hx
        exact hi.nul _ hx

/-- What a block adds to the numbers of kept blocks. -/
def Dims.add (d : Dims) (b : Block) : Dims :=
  ⟨d.libs + (if b.kind = .libRec then 1 else 0), d.tools + (if b.kind = .tool then 1 else 0),
    d.binds + b.elems, d.ini⟩

theorem Raw.keep {d : Dims} {T B : List Block} {h : Mem} {b : Block} (r : Raw d (b :: T) B h)
    (st : Stays b) (h1 : b.kind ≠ .bindRec) (h2 : b.kind ≠ .bindHash) : Raw (d.add b) T B h := by
  obtain ⟨R, p, hB, hS, c1, c2, c3, c4⟩ := r.ex
  refine ⟨⟨b :: R, ?_, fun x hx => List.mem_cons_of_mem _ (hB x hx), ?_, ?_, ?_, ?_, ?_⟩, r.nodup, r.lt⟩
  · exact p.trans (by simpa using List.perm_middle.symm)
  · intro x hx
    rcases List.mem_cons.1 hx with rfl | hx
    · exact st
    · exact hS x hx
  · rw [List.countP_cons, c1]; simp [Dims.add]
  · rw [List.countP_cons, c2]; simp [Dims.add]
  · rw [List.map_cons, List.sum_cons, c3]; simp [Dims.add, Nat.add_comm]
  · rw [List.countP_cons, List.countP_cons, c4]; simp [h1, h2]

theorem Raw.keep2 {d : Dims} {T B : List Block} {h : Mem} {i j n m : Nat}
    (r : Raw d (⟨i, .bindRec, n⟩ :: ⟨j, .bindHash, m⟩ :: T) B h) : Raw d T B h := by
  obtain ⟨R, p, hB, hS, c1, c2, c3, c4⟩ := r.ex
  refine ⟨⟨⟨i, .bindRec, n⟩ :: ⟨j, .bindHash, m⟩ :: R, ?_, fun x hx => ?_, ?_, ?_, ?_, ?_, ?_⟩,
    r.nodup, r.lt⟩
  · refine p.trans ?_
    rw [List.cons_append, List.cons_append]
    refine List.Perm.symm (List.perm_middle.trans (List.Perm.cons _ List.perm_middle))
  · exact List.mem_cons_of_mem _ (List.mem_cons_of_mem _ (hB x hx))
  · intro x hx
    rcases List.mem_cons.1 hx with rfl | hx
    · exact ⟨by simp, by simp⟩
    rcases List.mem_cons.1 hx with rfl | hx
    · exact ⟨by simp, by simp⟩
    · exact hS x hx
  · simp [List.countP_cons, c1]
  · simp [List.countP_cons, c2]
  · simp [Block.elems, c3]
  · simp [List.countP_cons, c4]

/-! ### states that own the same -/

theorem setInternal_sm (s : State) (hd v) : Ret (Sm s) (s.setInternal hd v) := by
  unfold State.setInternal
  split
  · exact Prot.Ret.err
  · exact Prot.Ret.ite (Prot.Ret.ok ⟨by simp [dims], rfl⟩) Prot.Ret.err

theorem lookupExported_sm (env : Env) (s : State) (n l) :
    Ret (fun x => Sm s x.1) (s.lookupExported env n l) := by
  have hv : Sm s (s.isVdso env l).1 := by
    unfold State.isVdso
    split <;> exact ⟨rfl, rfl⟩
  unfold State.lookupExported
  cases hx : s.isVdso env l with
  | mk s1 b =>
    rw [hx] at hv
    cases b with
    | true => exact Prot.Ret.ok hv
    | false =>
      simp only
      split
      · exact Prot.Ret.err
      · exact Prot.Ret.ok hv

theorem insertAfter_sm (s : State) (b pos) : Ret (Sm s) (s.insertAfter b pos) := by
  refine Prot.Ret.any (fun xb => Prot.Ret.any (fun xh => ?_))
  refine Prot.Ret.bind (setInternal_sm s _ _) (fun s2 h2 => ?_)
  refine Prot.Ret.bind (setInternal_sm s2 _ _) (fun s3 h3 => ?_)
  exact Prot.Ret.any (fun x => Prot.Ret.ok ((h2.trans h3).trans ⟨by simp [dims], rfl⟩))

theorem markGotWritable_sm (env : Env) (s : State) (l) : Ret (Sm s) (s.markGotWritable env l) := by
  unfold State.markGotWritable
  split
  · exact Prot.Ret.err
  · refine Prot.Ret.ok ?_
    rename_i rs hrs
    clear hrs
    induction rs generalizing s with
    | nil => exact Sm.refl s
    | cons r rs ih =>
      rw [List.foldl_cons]
      refine Sm.trans ?_ (ih _)
      unfold State.unprotect
      split <;> exact ⟨rfl, rfl⟩

theorem writeRelocs_sm {t : HTable Name BId} {base} (rl : List (Addr × Name)) : ∀ s : State,
    Ret (Sm s) (writeRelocs t base rl s) := by
  induction rl with
  | nil => intro s; exact Prot.Ret.ok (Sm.refl s)
  | cons q rl ih =>
    intro s
    refine Prot.Ret.any (fun o => ?_)
    cases o with
    | none => exact ih s
    | some b =>
      refine Prot.Ret.any (fun x => ?_)
      refine Prot.Ret.bind (Q := Sm s) ?_ (fun s1 h1 r hr => h1.trans (ih s1 r hr))
      unfold State.write
      exact Prot.Ret.ite (Prot.Ret.ok ⟨rfl, rfl⟩) Prot.Ret.err

/-! ### the engine -/

variable {B : List Block}

theorem Inv.rawC {s : State} {T h} (i : Inv s T B h) {A : Which → Option Nat} (hA : h.arr = A) :
    Raw (dims s) (tabs (sizes s) A ++ T) B h := hA ▸ i.raw

/-- Allocation in a state. -/
theorem inv_alloc {s : State} {T : List Block} (k n)
    {f : Option Nat → M β} {f' : Bool → Oom.M β'} {S : β → β' → Mem → Prop}
    (h1 : ∀ i, Tri (Inv s (⟨i, k, n⟩ :: T) B) (f (some i)) (f' true) S)
    (h2 : Tri (Inv s T B) (f none) (f' false) S) :
    Tri (Inv s T B) (alloc k n >>= f) (Oom.alloc >>= f') S := by
  intro o h hi
  refine tri_alloc (P := fun x => Inv s T B x ∧ x.arr = h.arr) (d := dims s)
    (T := tabs (sizes s) h.arr ++ T) (B := B) k n
    (C := fun x => x.arr = h.arr) arr_stable (fun x hx => ⟨hx.1.rawC hx.2, hx.2⟩) ?_ ?_ o h
    ⟨hi, rfl⟩
  · intro i
    refine (h1 i).pre fun x hx => ⟨?_, fun w hw => ?_, hi.ini⟩
    · rw [hx.2]; exact hx.1.perm List.perm_middle.symm
    · rw [hx.2] at hw; exact hi.nul w hw
  · refine h2.pre fun x hx => ⟨?_, fun w hw => ?_, hi.ini⟩
    · rw [hx.2]; exact hx.1
    · rw [hx.2] at hw; exact hi.nul w hw

theorem inv_need {s : State} {T : List Block} (k n) :
    Tri (Inv s T B) (need k n) Oom.need (fun i _ => Inv s (⟨i, k, n⟩ :: T) B) :=
  inv_alloc k n (fun _ => tri_pure fun _ h => h) tri_fail

theorem inv_free {s : State} {T : List Block} (b : Block)
    {f : Unit → M β} {m' : Oom.M β'} {S : β → β' → Mem → Prop}
    (h1 : Tri (Inv s T B) (f ()) m' S) :
    Tri (Inv s (b :: T) B) (free (some b.id) >>= f) m' S := by
  intro o h hi
  refine tri_free (P := fun x => Inv s (b :: T) B x ∧ x.arr = h.arr) (d := dims s)
    (T := tabs (sizes s) h.arr ++ T) (B := B) (b := b)
    (C := fun x => x.arr = h.arr) arr_stable
    (fun x hx => ⟨(hx.1.rawC hx.2).perm List.perm_middle, hx.2⟩) ?_ o h ⟨hi, rfl⟩
  refine h1.pre fun x hx => ⟨?_, fun w hw => ?_, hi.ini⟩
  · rw [hx.2]; exact hx.1
  · rw [hx.2] at hw; exact hi.nul w hw

/-- A block becomes one that stays. -/
theorem Inv.keep {s s' : State} {T : List Block} {h : Mem} {b : Block} (i : Inv s (b :: T) B h)
    (st : Stays b) (h1 : b.kind ≠ .bindRec) (h2 : b.kind ≠ .bindHash)
    (hd : dims s' = (dims s).add b) (hs : sizes s' = sizes s) : Inv s' T B h := by
  refine ⟨?_, ?_, by rw [hd]; exact i.ini⟩
  · rw [hd, hs]
    exact (i.raw.perm List.perm_middle).keep st h1 h2
  · rw [hs]; exact i.nul

theorem ensureLib_tri {T : List Block} (s : State) (l : Lib) :
    TriE (Inv s T B) (ensureLib s l) (Oom.ensureLib s l) (fun x => Inv x.1 T B) := by
  refine tri_any fun r => ?_
  cases r with
  | some r => exact triE_pure fun _ h => h
  | none =>
    refine Tri.bind (inv_need .libRec 1) fun i _ => ?_
    refine TriE.bind (addtoGlobal_tri .libs s.libTab _ _ _ rfl) fun t => ?_
    refine triE_pure fun h hh => ?_
    have := hh { s with libTab := t } rfl (fun x => by cases x <;> rfl)
    exact this.keep ⟨by simp, by simp⟩ (by simp) (by simp)
      (by simp [dims, Dims.add, Block.elems]) (by funext w; cases w <;> rfl)

theorem prepareLoop_tri {T : List Block} (env : Env) (name : Name) (hd : HAddr) (ls : List Lib) :
    ∀ s, TriE (Inv s T B) (prepareLoop env name hd ls s) (Oom.prepareLoop env name hd ls s)
      (fun x => Inv x.1 T B) := by
  induction ls with
  | nil => intro s; exact triE_pure fun _ h => h
  | cons l ls ih =>
    intro s
    refine TriE.bind (ensureLib_tri s l) fun x => ?_
    obtain ⟨s1, r1⟩ := x
    refine tri_lift (lookupExported_sm env s1 name l) fun y hy => ?_
    obtain ⟨s2, r⟩ := y
    refine Tri.pre (P := Inv s2 T B) ?_ fun h hh => hh.sm hy
    cases r with
    | some a =>
      exact tri_lift (setInternal_sm s2 _ _) fun s3 h3 => triE_pure fun _ h => h.sm h3
    | none => exact ih s2

theorem prepareSymbol_tri {T : List Block} (env : Env) (s : State) (b : Nat) :
    TriE (Inv s T B) (prepareSymbol env s b) (Oom.prepareSymbol env s b) (fun x => Inv x.1 T B) :=
  tri_any fun _ => prepareLoop_tri _ _ _ _ _

theorem insertAtHead_tri {T : List Block} (s : State) (b hd : Nat) :
    TriE (Inv s T B) (insertAtHead s b hd) (Oom.insertAtHead s b hd) (fun x => Inv x T B) := by
  refine tri_any fun xb => tri_any fun xh => ?_
  refine tri_lift (setInternal_sm _ _ _) fun s2 h2 => ?_
  have h2 : Sm s s2 := ⟨h2.dims.trans (by simp [dims]), h2.sizes⟩
  refine Tri.pre (P := Inv s2 T B) ?_ fun h hh => hh.sm h2
  refine tri_lift (removefrom_size _ _ _) fun y hy => ?_
  obtain ⟨t, r⟩ := y
  refine TriE.bind (addtoGlobal_tri .funs t _ _ _ (show sizes s2 .funs = t.size from hy.symm))
    fun t2 => triE_pure fun h hh => ?_
  exact hh _ rfl (fun x => by cases x <;> rfl)

/-- What is asked of the block for "main". -/
def OmTri (B : List Block) (om : State → M State) (om' : State → Oom.M State) : Prop :=
  ∀ s T, TriE (Inv s T B) (om s) (om' s) (fun x => Inv x T B)

theorem rewriteOrders_tri {T : List Block} {om : State → M State} {om' : State → Oom.M State}
    (ho : OmTri B om om') (s : State) (b : Nat) :
    TriE (Inv s T B) (rewriteOrders om s b) (Oom.rewriteOrders om' s b) (fun x => Inv x.1 T B) := by
  refine tri_any fun xb => tri_any fun p => ?_
  refine Rule.ite (Q := fun s1 => Inv s1 T B) (fun _ => ho s T) (fun _ => triE_pure fun _ h => h)
    fun s1 => ?_
  refine tri_any fun r => ?_
  cases r with
  | none =>
    refine TriE.bind (addtoGlobal_tri .funs s1.funTab _ _ _ rfl)
      fun t2 => triE_pure fun h hh => ?_
    exact hh _ rfl (fun x => by cases x <;> rfl)
  | some head =>
    refine tri_any fun hp => tri_ite (fun _ => ?_) fun _ => ?_
    · exact TriE.bind (insertAtHead_tri s1 b head) fun s2 => triE_pure fun _ h => h
    · refine tri_any fun pos => ?_
      cases pos with
      | none => exact triE_pure fun _ h => h
      | some pos =>
        exact tri_lift (insertAfter_sm s1 b pos) fun s2 h2 => triE_pure fun _ h => h.sm h2

theorem updateLib_tri {T : List Block} (env : Env) (t : HTable Name Nat) (s : State) (l : Lib) (n : Bool) :
    TriE (Inv s T B) (updateLib env t s l n) (Oom.updateLib env t s l n) (fun x => Inv x T B) := by
  refine TriE.bind (ensureLib_tri s l) fun x => ?_
  obtain ⟨s1, r⟩ := x
  refine tri_any fun acc => tri_ite (fun _ => triE_pure fun _ h => h) fun _ => ?_
  dsimp only
  cases s1.libs[r]? with
  | none => exact tri_fail
  | some rec =>
    refine tri_ite (fun _ => triE_pure fun _ h => h) fun _ => ?_
    refine Rule.ite2 (Q := fun s2 => Inv s2 T B) (fun _ => triE_pure fun _ h => h) (fun _ => ?_)
      fun s2 => ?_
    · exact tri_lift (markGotWritable_sm env s1 l) fun s2 h2 => triE_pure fun _ h =>
        h.sm (h2.trans ⟨by simp [dims], rfl⟩)
    · refine tri_any fun rl => ?_
      cases rl with
      | none => exact triE_pure fun _ h => h
      | some rl =>
        exact tri_lift (writeRelocs_sm rl s2) fun s3 h3 => triE_pure fun _ h =>
          h.sm (h3.trans ⟨by simp [dims], rfl⟩)

theorem updateLibs_tri {T : List Block} (env : Env) (t : HTable Name Nat) (ls : List Lib) : ∀ s,
    TriE (Inv s T B) (updateLibs env t ls s) (Oom.updateLibs env t ls s) (fun x => Inv x T B) := by
  induction ls with
  | nil => intro s; exact triE_pure fun _ h => h
  | cons l ls ih => intro s; exact TriE.bind (updateLib_tri env t s l _) fun s1 => ih s1

theorem updateAll_tri {T : List Block} (env : Env) (t : HTable Name Nat) (s : State) :
    TriE (Inv s T B) (updateAll env t s) (Oom.updateAll env t s) (fun x => Inv x T B) :=
  updateLibs_tri env t s.linkMap s

theorem reorder_len (ts : Tools) (i : Nat) :
    Ret (fun x : Tools => x.store.length = ts.store.length) (ts.reorder i) := by
  unfold Tools.reorder
  split
  · exact Prot.Ret.err
  · dsimp only
    split
    · exact Prot.Ret.ok (by simp)
    · split
      · exact Prot.Ret.err
      · refine Prot.Ret.ite (Prot.Ret.ok (by simp)) ?_
        split
        · exact Prot.Ret.err
        · split
          · exact Prot.Ret.err
          · exact Prot.Ret.ok (by simp)

theorem create_len (ts : Tools) (name : Name) :
    Ret (fun x : Tools × Nat => x.1.store.length = ts.store.length + 1) (ts.create name) := by
  unfold Tools.create
  dsimp only
  split
  · exact Prot.Ret.err
  · rename_i ts2 h2
    refine Prot.Ret.ok ?_
    have := reorder_len _ _ ts2 h2
    simpa using this

theorem removeLoop_len (store : List Tool) (t : Tool) : ∀ fuel cur,
    Ret (fun x : List Tool => x.length = store.length) (Tools.removeLoop store t fuel cur) := by
  intro fuel
  induction fuel with
  | zero => intro cur; exact Prot.Ret.err
  | succ n ih =>
    intro cur
    unfold Tools.removeLoop
    split
    · exact Prot.Ret.err
    · split
      · exact Prot.Ret.err
      · split
        · exact Prot.Ret.err
        · exact Prot.Ret.ite (Prot.Ret.ok (by simp)) (ih _)

theorem remove_len (ts : Tools) (i : Nat) :
    Ret (fun x : Tools => x.store.length = ts.store.length) (ts.remove i) := by
  unfold Tools.remove
  split
  · exact Prot.Ret.err
  · split
    · exact Prot.Ret.ok rfl
    · split
      · exact Prot.Ret.err
      · refine Prot.Ret.ite (Prot.Ret.ok rfl) ?_
        split
        · exact Prot.Ret.err
        · rename_i st hst
          exact Prot.Ret.ok (removeLoop_len _ _ _ _ st hst)

/-- After `get_tool`/`create_tool`. -/
def ToolPost (s : State) (T B : List Block) (x : Option (Tools × Nat)) (h : Mem) : Prop :=
  match x with
  | none => Inv s T B h
  | some (ts, _) => Inv { s with tools := ts } T B h

theorem createTool_tri {T : List Block} (s : State) (name : Name) :
    TriE (Inv s T B) (createTool s.tools name) (Oom.createTool s.tools name) (ToolPost s T B) := by
  refine inv_alloc .tool 1 (fun i => ?_) (triE_pure fun _ h => h)
  refine tri_lift (create_len s.tools name) fun r hr => ?_
  have key : ∀ h : Mem, Inv s (⟨i, .tool, 1⟩ :: T) B h → Inv { s with tools := r.1 } T B h := fun h hh =>
    hh.keep ⟨by simp, by simp⟩ (by simp) (by simp) (by simp [dims, Dims.add, Block.elems, hr])
      (by funext w; cases w <;> rfl)
  refine inv_alloc .childTools 24 (fun j => triE_pure fun h hh => ?_) (triE_pure fun h hh => key h hh)
  refine key h ?_
  exact hh.keep ⟨by simp, by simp⟩ (by simp) (by simp) (by simp [dims, Dims.add, Block.elems]) rfl

theorem getOrCreate_tri {T : List Block} (s : State) (name : Name) :
    TriE (Inv s T B) (getOrCreate s.tools name) (Oom.getOrCreate s.tools name) (ToolPost s T B) := by
  refine tri_any fun r => ?_
  cases r with
  | some i => exact triE_pure fun _ h => h
  | none => exact createTool_tri s name

theorem addBindings_dims (tool : Nat) (table : List UBinding) : ∀ s : State,
    dims (addBindings tool table s) = ⟨s.libs.length, s.tools.store.length, s.binds.length + table.length, s.inited⟩ ∧
    sizes (addBindings tool table s) = sizes s := by
  induction table with
  | nil => intro s; exact ⟨rfl, rfl⟩
  | cons u us ih =>
    intro s
    rw [addBindings]
    obtain ⟨h1, h2⟩ := ih (State.setHandle
      { s with binds := s.binds ++ [{ tool, user := u, next := none, wrappee := none }] }
      u.handle (some s.binds.length))
    refine ⟨h1.trans ?_, h2.trans rfl⟩
    simp [State.setHandle]
    omega

theorem addBindingToTool_tri {T : List Block} (tool : Nat) (table : List UBinding) (s : State) :
    TriE (Inv s T B) (addBindingToTool tool table s) (Oom.addBindingToTool tool table s)
      (fun x => Inv x.1 T B) := by
  obtain ⟨e1, e2⟩ := addBindings_dims tool table s
  refine Tri.bind (inv_need .bindRec 1) fun i _ => ?_
  have rest : Tri (Inv (addBindings tool table s) (⟨i, .bindRec, 1⟩ :: T) B)
      (do match ← alloc .bindHash (table.length * 2) with
          | some _ => pure (addBindings tool table s, true)
          | none => do
            free (some i)
            pure (addBindings tool table s, false))
      (do let ok ← Oom.alloc
          pure (addBindings tool table s, ok))
      (fun x x' h => x = x' ∧ Inv x.1 T B h) := by
    refine inv_alloc .bindHash _ (fun j => triE_pure fun h hh => ?_) ?_
    · exact ⟨(hh.raw.perm (List.perm_middle.trans ((List.perm_middle).cons _))).perm (List.Perm.swap _ _ _)
        |>.keep2, hh.nul, hh.ini⟩
    · exact inv_free ⟨i, .bindRec, 1⟩ (triE_pure fun _ h => h)
  refine inv_alloc .bindArr _ (fun j => ?_) ?_
  · refine Tri.pre rest fun h hh => ?_
    exact (hh.keep ⟨by simp, by simp⟩ (by simp) (by simp)
      (by rw [e1]; simp [dims, Dims.add, Block.elems]) e2)
  · refine tri_ite (fun h0 => ?_) fun _ => tri_fail
    refine Tri.pre rest fun h hh => ?_
    exact hh.sm ⟨by rw [e1, h0]; rfl, e2⟩

/-! ### `gotcha_wrap` -/

/-- The array of `new_bindings`. -/
def nbOwn : Option (HTable Name Nat × Option Nat) → List Block
  | none => []
  | some (t, a) => own a .newBindings t.size

/-- `new_bindings` of the two engines; its array is there when it is. -/
def NbRel (nb : Option (HTable Name Nat × Option Nat)) (nb' : Option (HTable Name Nat)) : Prop :=
  nb.map (·.1) = nb' ∧ ∀ x, nb = some x → x.2 ≠ none

theorem create_tri {K D : Type} {s : State} {T : List Block} (k : Kind) (page n : Nat) :
    Tri (Inv s T B) (create k page n) (Oom.create page n)
      (fun (x : Option (HTable K D × Option Nat)) x' h =>
        match x with
        | none => x' = none ∧ Inv s T B h
        | some x => (x' = some x.1 ∧ x.2 ≠ none) ∧ Inv s (own x.2 k x.1.size ++ T) B h) := by
  refine tri_any fun t => ?_
  exact inv_alloc k t.size (fun i => tri_pure fun h hh => ⟨⟨rfl, by simp⟩, hh⟩)
    (tri_pure fun h hh => ⟨rfl, hh⟩)

theorem addLocal_tri {s : State} {T : List Block} (t : HTable Name Nat) (a : Option Nat) (name : Name)
    (b : Nat) (hv) (ha : a ≠ none) :
    Tri (Inv s (own a .newBindings t.size ++ T) B) (addto .newBindings t a name b hv)
      (Oom.addto t name b hv)
      (fun x x' h => (x.1 = x' ∧ x.2 ≠ none) ∧ Inv s (own x.2 .newBindings x.1.size ++ T) B h) := by
  intro o h hi
  have h1 := addto_tri (d := dims s) (T := tabs (sizes s) h.arr ++ T) (B := B) (A := h.arr)
    .newBindings t a name b hv o h
    ⟨hi.raw.perm (by
      rw [← List.append_assoc, ← List.append_assoc]
      exact List.perm_append_comm.append_right T), rfl⟩
  cases hm : addto .newBindings t a name b hv o h with
  | error e =>
    rw [hm] at h1
    cases e with
    | badFree => exact h1
    | fault e => exact h1
  | ok y =>
    rw [hm] at h1
    obtain ⟨x', e', h2, ⟨r, hA⟩, hn⟩ := h1
    refine ⟨x', e', ⟨h2, fun e => ha (hn e).1⟩, ⟨?_, ?_, hi.ini⟩⟩
    · rw [hA]
      refine r.perm ?_
      rw [← List.append_assoc, ← List.append_assoc]
      exact List.perm_append_comm.append_right T
    · rw [hA]; exact hi.nul

theorem addNew_tri {s : State} {T : List Block} (env : Env) (n : Nat)
    (nb : Option (HTable Name Nat × Option Nat)) (nb' : Option (HTable Name Nat)) (name : Name) (b : Nat)
    (hr : NbRel nb nb') :
    Tri (Inv s (nbOwn nb ++ T) B) (addNew env n nb name b) (Oom.addNew env n nb' name b)
      (fun x x' h => NbRel x x' ∧ Inv s (nbOwn x ++ T) B h) := by
  obtain ⟨rfl, hn⟩ := hr
  have fin : ∀ (t : HTable Name Nat) (a : Option Nat), a ≠ none →
      Tri (Inv s (own a .newBindings t.size ++ T) B)
        (addto .newBindings t a name b (strhash name) >>= fun t => pure (some t))
        (Oom.addto t name b (strhash name) >>= fun t => pure (some t))
        (fun x x' h => NbRel x x' ∧ Inv s (nbOwn x ++ T) B h) := by
    intro t a ha
    refine Tri.bind (addLocal_tri t a name b _ ha) fun x x' => ?_
    refine tri_pure fun h hh => ⟨⟨?_, ?_⟩, hh.2⟩
    · show some x.1 = some x'
      rw [hh.1.1]
    · intro y e
      cases e
      exact hh.1.2
  cases nb with
  | some x => exact fin x.1 x.2 (hn x rfl)
  | none =>
    refine Tri.bind (create_tri .newBindings env.page (n * 2)) fun x x' => ?_
    cases x with
    | none => exact tri_have (fun h hh => hh.1) fun e => by subst e; exact tri_fail
    | some x =>
      refine tri_have (fun h hh => hh.1) fun e => ?_
      obtain ⟨rfl, ha⟩ := e
      exact (fin x.1 x.2 ha).pre fun h hh => hh.2

theorem processBindings_tri {env : Env} {om : State → M State} {om' : State → Oom.M State}
    (ho : OmTri B om om') {n : Nat} {T : List Block} (bs : List Nat) : ∀ (s : State) nb nb' nf, NbRel nb nb' →
    Tri (Inv s (nbOwn nb ++ T) B) (processBindings env om n bs s nb nf)
      (Oom.processBindings env om' n bs s nb' nf)
      (fun x x' h => (x.1 = x'.1 ∧ NbRel x.2.1 x'.2.1 ∧ x.2.2 = x'.2.2) ∧
        Inv x.1 (nbOwn x.2.1 ++ T) B h) := by
  induction bs with
  | nil => intro s nb nb' nf hr; exact tri_pure fun h hh => ⟨⟨rfl, hr, rfl⟩, hh⟩
  | cons b bs ih =>
    intro s nb nb' nf hr
    refine tri_any fun xb => ?_
    refine TriE.bind (rewriteOrders_tri ho s b) fun x => ?_
    obtain ⟨s1, r⟩ := x
    have key : ∀ s2 nf2, Tri (Inv s2 (nbOwn nb ++ T) B)
        (if r.binding = true then do
            let nb ← addNew env n nb xb.user.name b
            processBindings env om n bs s2 nb nf2
          else processBindings env om n bs s2 nb nf2)
        (if r.binding = true then do
            let nb ← Oom.addNew env n nb' xb.user.name b
            Oom.processBindings env om' n bs s2 nb nf2
          else Oom.processBindings env om' n bs s2 nb' nf2)
        (fun x x' h => (x.1 = x'.1 ∧ NbRel x.2.1 x'.2.1 ∧ x.2.2 = x'.2.2) ∧
          Inv x.1 (nbOwn x.2.1 ++ T) B h) := by
      intro s2 nf2
      refine tri_ite (fun _ => ?_) fun _ => ih s2 nb nb' nf2 hr
      refine Tri.bind (addNew_tri env n nb nb' _ b hr) fun y y' => ?_
      exact tri_have (fun h hh => hh.1) fun hy => (ih s2 y y' nf2 hy).pre fun h hh => hh.2
    refine tri_ite (fun _ => ?_) fun _ => key s1 nf
    refine TriE.bind (prepareSymbol_tri env s1 b) fun y => ?_
    obtain ⟨s2, ok⟩ := y
    refine tri_ite (fun _ => key s2 nf) fun _ => ?_
    refine TriE.bind (addtoGlobal_tri .missing s2.notFound _ _ _ rfl) fun t => ?_
    exact (key { s2 with notFound := t } (nf + 1)).pre fun h hh => hh _ rfl (fun x => by cases x <;> rfl)

theorem clearHandles_sm (table : List UBinding) : ∀ s : State,
    Sm s (table.foldl (fun s u => s.setHandle u.handle none) s) := by
  induction table with
  | nil => intro s; exact Sm.refl s
  | cons u us ih =>
    intro s
    rw [List.foldl_cons]
    exact Sm.trans (s' := s.setHandle u.handle none) ⟨rfl, rfl⟩ (ih _)

theorem wrapCore_tri {env : Env} {om : State → M State} {om' : State → Oom.M State}
    (ho : OmTri B om om') {T : List Block} (table : List UBinding) (tool : Option Name) (s : State) :
    TriE (Inv s T B) (wrapCore env om table tool s) (Oom.wrapCore env om' table tool s)
      (fun x => Inv x.1 T B) := by
  refine Tri.pre (P := Inv (table.foldl (fun s u => s.setHandle u.handle none) s) T B) ?_
    fun h hh => hh.sm (clearHandles_sm table s)
  refine TriE.bind (getOrCreate_tri _ _) fun x => ?_
  cases x with
  | none => exact triE_pure fun h hh => hh
  | some x =>
    obtain ⟨ts, tid⟩ := x
    refine Tri.pre (P := Inv { (table.foldl (fun s u => s.setHandle u.handle none) s) with
      tools := ts, gen := (table.foldl (fun s u => s.setHandle u.handle none) s).gen + 1 } T B) ?_
      fun h hh => hh.sm ⟨rfl, rfl⟩
    refine TriE.bind (addBindingToTool_tri tid table _) fun y => ?_
    obtain ⟨s2, ok⟩ := y
    refine tri_ite (fun _ => triE_pure fun _ h => h) fun _ => ?_
    refine Tri.bind (processBindings_tri ho _ s2 none none 0 ⟨rfl, fun x e => by cases e⟩) fun z z' => ?_
    obtain ⟨s3, nb, nf⟩ := z
    obtain ⟨s3', nb', nf'⟩ := z'
    refine tri_have (fun h hh => hh.1) fun hz => Tri.pre (P := Inv s3 (nbOwn nb ++ T) B) ?_
      fun h hh => hh.2
    obtain ⟨rfl, ⟨rfl, hn⟩, rfl⟩ := hz
    cases nb with
    | none => exact triE_pure fun _ h => h
    | some x =>
      obtain ⟨t, a⟩ := x
      cases a with
      | none => exact (hn _ rfl rfl).elim
      | some i =>
        refine TriE.bind (updateAll_tri env t s3) fun s4 => ?_
        exact inv_free ⟨i, .newBindings, t.size⟩ (triE_pure fun _ h => h)

theorem onMainReal_tri (env : Env) : OmTri B (onMainReal env) (Oom.onMainReal env) := by
  intro s T
  have hid : OmTri B (fun s => pure s) (fun s => pure s) := fun s T => triE_pure fun _ h => h
  refine tri_ite (fun _ => triE_pure fun _ h => h) fun _ => ?_
  refine Tri.pre (P := Inv { s with mainWrapped := true } T B) ?_ fun h hh => hh.sm ⟨rfl, rfl⟩
  refine TriE.bind (wrapCore_tri hid _ _ _) fun x => ?_
  refine TriE.bind (wrapCore_tri hid _ _ _) fun y => ?_
  exact triE_pure fun _ h => h

theorem wrapBody_tri {T : List Block} (env : Env) (table : List UBinding) (tool : Option Name) (s : State) :
    TriE (Inv s T B) (wrapBody env table tool s) (Oom.wrapBody env table tool s) (fun x => Inv x.1 T B) :=
  wrapCore_tri (onMainReal_tri env) table tool s

/-! ### initialisation -/

/-- Before the first call. -/
structure Fresh (s : State) (B : List Block) (h : Mem) : Prop where
  ini : s.inited = false
  raw : Raw (dims s) [] B h
  arr : ∀ w, h.arr w = none
  size : ∀ w, sizes s w = 0

theorem createGlobal_tri {K D : Type} {s : State} {A : Which → Option Nat} (w : Which) (page n : Nat)
    (old : HTable K D) (ho : sizes s w = old.size) (hA : A w = none) :
    Tri (fun h => Inv s [] B h ∧ h.arr = A) (createGlobal w page n old)
      (Oom.create page n)
      (fun t1 x' h => t1 = x'.getD old ∧ (∀ s', dims s' = dims s →
        (∀ x, sizes s' x = if x = w then t1.size else sizes s x) → Inv s' [] B h) ∧
        ∀ x, x ≠ w → h.arr x = A x) := by
  intro o h hi
  obtain ⟨hi, hh⟩ := hi
  have h1 := create_tri (K := K) (D := D) (.table w) page n o h hi
  have e : (createGlobal w page n old) o h = (create (.table w) page n >>= fun x => match x with
      | some (t, a) => do
        setArr w a
        pure t
      | none => pure old) o h := rfl
  rw [e]
  have harr : ∀ y, create (K := K) (D := D) (.table w) page n o h = .ok y → y.2.arr = h.arr := by
    intro y hy
    have e : create (K := K) (D := D) (.table w) page n o h =
        (lift (HTable.create page n) >>= fun t => alloc (.table w) t.size >>= fun r => match r with
          | some i => pure (some (t, some i))
          | none => pure none) o h := rfl
    rw [e] at hy
    cases hc : (HTable.create page n : Except Fault (HTable K D)) with
    | error f => rw [hc] at hy; cases hy
    | ok t =>
      rw [hc, bind_ok (x := t) (h' := h) rfl] at hy
      cases hb : o h.calls with
      | true =>
        rw [bind_ok (x := .some h.calls)
          (h' := { h with calls := h.calls + 1, live := ⟨h.calls, .table w, t.size⟩ :: h.live })
          (by unfold alloc; rw [if_pos hb])] at hy
        cases hy
        rfl
      | false =>
        rw [bind_ok (x := .none) (h' := { h with calls := h.calls + 1 })
          (by unfold alloc; rw [hb]; rfl)] at hy
        cases hy
        rfl
  cases hm : create (K := K) (D := D) (.table w) page n o h with
  | error e =>
    rw [hm] at h1
    rw [bind_err hm]
    cases e with
    | badFree => exact h1
    | fault e => exact h1
  | ok y =>
    have ha := harr y hm
    obtain ⟨x, h'⟩ := y
    rw [hm] at h1
    rw [bind_ok hm]
    dsimp only at ha
    obtain ⟨x', e', r⟩ := h1
    rw [e']
    cases x with
    | none =>
      obtain ⟨rfl, r⟩ := r
      refine ⟨none, rfl, rfl, fun s' hd hs => ?_, fun x _ => by rw [ha, hh]⟩
      refine r.sm ⟨hd, ?_⟩
      funext x
      rw [hs]
      split
      · rename_i e; subst e; exact ho.symm
      · rfl
    | some x =>
      obtain ⟨t, a⟩ := x
      obtain ⟨⟨rfl, hn⟩, r⟩ := r
      refine ⟨some t, rfl, rfl, fun s' hd hs => ?_, fun x hx => ?_⟩
      · have hr := r.raw
        refine ⟨?_, ?_, by rw [hd]; exact r.ini⟩
        · rw [hd]
          refine Raw.perm (Raw.arr hr _) ?_
          have p1 := tabs_perm (sizes s') (fun x => if x = w then a else h'.arr x) w
          have p2 := tabs_perm (sizes s) h'.arr w
          rw [ha, hh, hA] at p2
          have e2 : others (sizes s') (fun x => if x = w then a else h'.arr x) w =
              others (sizes s) A w := others_congr
            (fun x hx => by rw [hs, if_neg hx]) (fun x hx => by simp [hx, ha, hh])
          rw [e2] at p1
          have e3 : own ((fun x => if x = w then a else h'.arr x) w) (Kind.table w) (sizes s' w) =
              own a (.table w) t.size := by
            rw [hs, if_pos rfl]; simp
          rw [e3] at p1
          have p2 : (tabs (sizes s) h'.arr).Perm (others (sizes s) A w) := by
            rw [ha, hh]; exact p2
          show (tabs (sizes s) h'.arr ++ (own a (.table w) t.size ++ [])).Perm (tabs _ _ ++ [])
          rw [List.append_nil, List.append_nil]
          exact (p2.append_right _).trans (List.perm_append_comm.trans p1.symm)
        · intro x hx
          rw [hs]
          dsimp only at hx
          by_cases e : x = w
          · subst e
            rw [if_pos rfl] at hx
            exact (hn hx).elim
          · rw [if_neg e] at hx ⊢
            exact r.nul _ hx
      · show (if x = w then a else h'.arr x) = A x
        rw [if_neg hx, ha, hh]

theorem gotchaInit_tri (env : Env) (s : State) :
    TriE (fun h => Fresh s B h ∨ Inv s [] B h) (gotchaInit env s) (Oom.gotchaInit env s)
      (fun x => Inv x [] B) := by
  refine tri_ite (fun hi => triE_pure fun h hh => ?_) fun hi => ?_
  · rcases hh with hh | hh
    · exact absurd (hh.ini.symm.trans hi) (by decide)
    · exact hh
  have h0 : ∀ h, Fresh s B h ∨ Inv s [] B h → Fresh s B h := by
    intro h hh
    rcases hh with hh | hh
    · exact hh
    · exact (hi hh.ini).elim
  refine Tri.pre (P := fun h => Inv { s with inited := true } [] B h ∧ h.arr = fun _ => none) ?_ ?_
  · refine Tri.bind (createGlobal_tri .libs env.page 128 s.libTab rfl rfl) fun lt lt' => ?_
    refine tri_have (fun h hh => hh.1) fun e1 => ?_
    subst e1
    refine Tri.pre (P := fun h => Inv { s with inited := true, libTab := lt'.getD s.libTab } [] B h ∧
      (h.arr .funs = none ∧ h.arr .missing = none)) ?_ ?_
    · intro o h hh
      refine Tri.bind (createGlobal_tri (s := { s with inited := true, libTab := lt'.getD s.libTab })
        (A := h.arr) .funs env.page 4096 s.funTab rfl hh.2.1) (fun ft ft' => ?_) o h ⟨hh.1, rfl⟩
      refine tri_have (fun h hh => hh.1) fun e1 => ?_
      subst e1
      refine Tri.pre (P := fun h => Inv { s with
        inited := true, libTab := lt'.getD s.libTab, funTab := ft'.getD s.funTab } [] B h ∧
        h.arr .missing = none) ?_ ?_
      · intro o h hh
        refine Tri.bind (createGlobal_tri (s := { s with
          inited := true, libTab := lt'.getD s.libTab, funTab := ft'.getD s.funTab })
          (A := h.arr) .missing env.page 128 s.notFound rfl hh.2) (fun nt nt' => ?_) o h ⟨hh.1, rfl⟩
        refine tri_have (fun h hh => hh.1) fun e1 => ?_
        subst e1
        refine Tri.pre (P := Inv { s with
          inited := true, libTab := lt'.getD s.libTab, funTab := ft'.getD s.funTab,
          notFound := nt'.getD s.notFound } [] B) ?_
          (fun h hh => hh.2.1 _ rfl (fun x => by cases x <;> rfl))
        refine TriE.bind (wrapBody_tri env _ _ _) fun x => ?_
        exact triE_pure fun _ h => h
      · intro h1 h2
        refine ⟨h2.2.1 _ rfl (fun x => by cases x <;> rfl), ?_⟩
        rw [h2.2.2 _ (by simp)]
        exact hh.2.2
    · intro h1 h2
      refine ⟨h2.2.1 _ rfl (fun x => by cases x <;> rfl), ?_, ?_⟩
      · exact h2.2.2 _ (by simp)
      · exact h2.2.2 _ (by simp)
  · intro h hh
    have hf := h0 h hh
    have ha : h.arr = fun _ => none := funext hf.arr
    refine ⟨⟨?_, fun w _ => hf.size w, rfl⟩, ha⟩
    rw [ha]
    exact ⟨hf.raw.ex, hf.raw.nodup, hf.raw.lt⟩

/-! ### the entry points -/

theorem gotchaWrap_tri (env : Env) (table : List UBinding) (tool : Option Name) (s : State) :
    TriE (fun h => Fresh s B h ∨ Inv s [] B h) (gotchaWrap env table tool s)
      (Oom.gotchaWrap env table tool s) (fun x => Inv x.1 [] B) :=
  TriE.bind (gotchaInit_tri env s) fun s1 => wrapBody_tri env table tool s1

theorem gotchaSetPriority_tri (env : Env) (tool : Name) (v : Int) (s : State) :
    TriE (fun h => Fresh s B h ∨ Inv s [] B h) (gotchaSetPriority env tool v s)
      (Oom.gotchaSetPriority env tool v s) (fun x => Inv x [] B) := by
  refine TriE.bind (gotchaInit_tri env s) fun s1 => ?_
  refine TriE.bind (getOrCreate_tri s1 tool) fun x => ?_
  cases x with
  | none => exact tri_fail
  | some x =>
    obtain ⟨ts1, i⟩ := x
    refine Tri.pre (P := Inv { s1 with tools :=
      { ts1 with store := ts1.store.modify i (fun t => { t with priority := v }) } } [] B) ?_
      fun h hh => Inv.sm hh ⟨by simp [dims], rfl⟩
    refine TriE.bind (getOrCreate_tri { s1 with tools :=
      { ts1 with store := ts1.store.modify i (fun t => { t with priority := v }) } } tool) fun y => ?_
    cases y with
    | none => exact tri_fail
    | some y =>
      obtain ⟨ts3, j⟩ := y
      refine tri_lift (remove_len ts3 j) fun ts4 h4 => tri_lift (reorder_len ts4 j) fun ts5 h5 => ?_
      exact triE_pure fun h hh => Inv.sm hh ⟨by simp [dims, h4, h5], rfl⟩

theorem gotchaGetPriority_tri (env : Env) (tool : Name) (s : State) :
    TriE (fun h => Fresh s B h ∨ Inv s [] B h) (gotchaGetPriority env tool s)
      (Oom.gotchaGetPriority env tool s) (fun x => Inv x.1 [] B) :=
  TriE.bind (gotchaInit_tri env s) fun _ => tri_any fun _ => triE_pure fun _ h => h

theorem perBinding_tri {T : List Block} (env : Env) (key : Option Name) (data : Option Nat) (s : State) :
    TriE (Inv s T B) (perBinding env key data s) (Oom.perBinding env key data s)
      (fun x => Inv x.1 T B) := by
  cases key with
  | none => exact tri_fail
  | some k =>
    cases data with
    | none => exact tri_fail
    | some b =>
      refine tri_any fun b1 => ?_
      refine TriE.bind (prepareSymbol_tri env s b1) fun x => ?_
      obtain ⟨s2, ok⟩ := x
      refine tri_ite (fun _ => ?_) fun _ => triE_pure fun _ h => h
      refine tri_lift (removefrom_size _ _ _) fun y hy => ?_
      refine triE_pure fun h hh => Inv.sm hh ⟨rfl, ?_⟩
      funext w
      cases w
      · rfl
      · rfl
      · exact hy

theorem foreachNotFound_tri {T : List Block} (env : Env) : ∀ (n : Nat) (i : Option Nat) (s : State),
    TriE (Inv s T B) (foreachNotFound env n i s) (Oom.foreachNotFound env n i s) (fun x => Inv x T B) := by
  intro n
  induction n with
  | zero =>
    intro i s
    cases i with
    | none => exact triE_pure fun _ h => h
    | some i => exact tri_fail
  | succ n ih =>
    intro i s
    cases i with
    | none => exact triE_pure fun _ h => h
    | some i =>
      rw [foreachNotFound, Oom.foreachNotFound]
      cases s.notFound.slots[i]? with
      | none => exact tri_fail
      | some e =>
        refine TriE.bind (perBinding_tri env _ _ s) fun x => ?_
        obtain ⟨s1, stop⟩ := x
        refine tri_ite (fun _ => triE_pure fun _ h => h) fun _ => ?_
        cases s1.notFound.slots[i]? with
        | none => exact tri_fail
        | some e' => exact ih _ _

theorem dlopenWrapper_tri {T : List Block} (env : Env) (ld : Load) (s : State) :
    TriE (Inv s T B) (dlopenWrapper env ld s) (Oom.dlopenWrapper env ld s) (fun x => Inv x T B) := by
  refine tri_any fun _ => ?_
  refine Tri.pre (P := Inv (s.load ld) T B) ?_ fun h hh => hh.sm ⟨rfl, rfl⟩
  refine TriE.bind (foreachNotFound_tri env _ _ _) fun s1 => ?_
  exact updateAll_tri env _ s1

end Gotcha.Heap
