import Verif.Proof.Copies
import Verif.Demo.Twin
/-
C124: any number of copies of GOTCHA in one process, used in any interleaving.
-/
namespace Gotcha
open Spec

variable {ι : Type} [DecidableEq ι]

theorem copies_lock {c : Copies ι} (ok : ∀ i, (c.proc i).Ok) {strict : ι → Prop} {good : ι → Lib → Prop}
    {evs : List (ι × Op)} (h : ∀ i, HistoryFor (c.proc i) (strict i) (good i) (viewOf i evs))
    (hal : ∀ i, strict i → LeaveAlone c i (good i) evs) {S : ι → State}
    (hr : runAll c.env evs (fun i => (c.proc i).start) = .ok S) : Lock c strict good evs [] S := by
  obtain ⟨S', h1, h2⟩ := lock_run ok (fun i => (h i).honest.own) hal evs [] rfl (lock_start ok h)
  rw [hr] at h1
  cases h1
  exact h2

/-- C124.  Copies of GOTCHA with any histories, interleaved in any way: no call faults, and after every
event all copies see the same memory, protections and link map. -/
theorem C124_copies_run {c : Copies ι} (ok : ∀ i, (c.proc i).Ok) {evs : List (ι × Op)}
    (h : ∀ i, History (c.proc i) False (viewOf i evs)) :
    ∃ S, runAll c.env evs (fun i => (c.proc i).start) = .ok S ∧
      ∀ i, (S i).linkMap = libsAfter c.libs (viewOf i evs) ∧
        ∀ j, (S i).linkMap = (S j).linkMap ∧ (S i).mem = (S j).mem ∧ (S i).wr = (S j).wr := by
  obtain ⟨S, h1, h2⟩ := lock_run ok (fun i => (h i).honest.own) (fun i hs => hs.elim) evs [] rfl
    (lock_start ok fun i => (h i).for)
  exact ⟨S, h1, fun i => ⟨lock_libs h2 i, fun j => h2.same i j⟩⟩

/-- C124, stacks: whatever the other copies do, the wrappers a copy's clients registered for a function
stay one stack: the call of any of them runs those below it and then the function, and no wrapper of
another copy. -/
theorem C124_stacks_survive {c : Copies ι} (ok : ∀ i, (c.proc i).Ok) {evs : List (ι × Op)}
    (h : ∀ i, History (c.proc i) False (viewOf i evs)) {own : HAddr → ι}
    (hown : ∀ i, ∀ x ∈ handlesOf (c.env i) (viewOf i evs), own x = i) {S : ι → State}
    (hr : runAll c.env evs (fun i => (c.proc i).start) = .ok S) (i : ι) (f : Name) {r : Addr}
    (hreal : realAfter (c.env i) c.libs (viewOf i evs) f = some r) (hprog : c.P r = none) :
    ∃ order : List Frame, order.Perm (registered (c.env i) (viewOf i evs) f) ∧
      (Settled (viewOf i evs) →
        order.Pairwise (fun a b => prioOr b.tool (viewOf i evs) ≤ prioOr a.tool (viewOf i evs))) ∧
      ∀ above fr below, order = above ++ fr :: below →
        ∀ path, CallsOf c.P own S fr.wrapper path ↔ path = wrappers (fr :: below) ++ [r] := by
  have hl := copies_lock (strict := fun _ => False) ok (fun i => (h i).for) (fun _ hs => hs.elim) hr
  obtain ⟨seen, n, -, ht, -⟩ := hl.top i
  have hv := top_view ht
  refine ⟨stackOf (c.proc i) (viewOf i evs) f, stackOf_perm _ _ f, fun hset => stackOf_sorted _ hset f, ?_⟩
  intro above fr below e path
  have hc := view_calls hv.weaken (by rw [show c.env i = (c.proc i).env from rfl, real_run]; exact hreal)
    hprog (fr :: below) above e fr below rfl
  have hperm : ∀ x ∈ fr :: below, x ∈ registered (c.env i) (viewOf i evs) f := by
    intro x hx
    refine (stackOf_perm (c.proc i) (viewOf i evs) f).mem_iff.1 ?_
    rw [e]
    exact List.mem_append_right _ hx
  have hc2 : CallsOf c.P own S fr.wrapper (wrappers (fr :: below) ++ [r]) := by
    refine CallsOf.one hc ?_
    intro b hb x hx
    rcases List.mem_append.1 hb with hb | hb
    · obtain ⟨g, hg, rfl⟩ := List.mem_map.1 hb
      obtain ⟨u, hu, -, e1, -⟩ := registered_from (hperm g hg)
      obtain ⟨k1, k2⟩ := honest_reads (h i).honest hu
      rw [e1, show c.P u.wrapper = some u.handle from k1] at hx
      cases hx
      exact hown i _ k2
    · rw [List.mem_singleton] at hb
      subst hb
      rw [hprog] at hx
      cases hx
  exact ⟨fun h => h.det hc2, fun e => e ▸ hc2⟩

/-- C124, interception: if the filters the other copies have in force keep them off some libraries, the
calls from those libraries run all wrappers registered with this copy, in one order, and then the
function; other copies may do what they like to other libraries, and in between. -/
theorem C124_copies_do_not_interfere {c : Copies ι} (ok : ∀ i, (c.proc i).Ok) {strict : ι → Prop}
    {good : ι → Lib → Prop} {evs : List (ι × Op)}
    (h : ∀ i, HistoryFor (c.proc i) (strict i) (good i) (viewOf i evs))
    (hal : ∀ i, strict i → LeaveAlone c i (good i) evs) {own : HAddr → ι}
    (hown : ∀ i, ∀ x ∈ handlesOf (c.env i) (viewOf i evs), own x = i) {S : ι → State}
    (hr : runAll c.env evs (fun i => (c.proc i).start) = .ok S) (i : ι) (hs : strict i) (f : Name) {r : Addr}
    (hreg : registered (c.env i) (viewOf i evs) f ≠ [])
    (hreal : realAfter (c.env i) c.libs (viewOf i evs) f = some r) (hprog : c.P r = none) :
    ∃ order : List Frame, order.Perm (registered (c.env i) (viewOf i evs) f) ∧
      (Settled (viewOf i evs) →
        order.Pairwise (fun a b => prioOr b.tool (viewOf i evs) ≤ prioOr a.tool (viewOf i evs))) ∧
      ∀ l ∈ libsAfter c.libs (viewOf i evs), good i l → ∀ off, (off, f) ∈ rlOf l →
        ∀ j path, CallsOf c.P own S ((S j).mem (l.addr + off)) path ↔ path = wrappers order ++ [r] := by
  have hl := copies_lock ok h hal hr
  obtain ⟨seen, n, -, ht, -⟩ := hl.top i
  have hv := top_view ht
  refine ⟨stackOf (c.proc i) (viewOf i evs) f, stackOf_perm _ _ f, fun hset => stackOf_sorted _ hset f, ?_⟩
  intro l hl' hg off hoff j path
  cases hst : stackOf (c.proc i) (viewOf i evs) f with
  | nil =>
    have := stackOf_perm (c.proc i) (viewOf i evs) f
    rw [hst] at this
    exact absurd (List.nil_perm.1 this) hreg
  | cons fr st =>
    have hslot : (S i).mem (l.addr + off) = fr.wrapper :=
      hv.slots hs l (by rw [lock_libs hl i]; exact hl') hg (off, f) hoff fr st hst
    have hc := view_calls hv.weaken (by rw [show c.env i = (c.proc i).env from rfl, real_run]; exact hreal)
      hprog (stackOf (c.proc i) (viewOf i evs) f) [] rfl fr st hst
    have hc2 : CallsOf c.P own S ((S j).mem (l.addr + off)) (wrappers (fr :: st) ++ [r]) := by
      rw [(hl.same j i).2.1, hslot]
      refine CallsOf.one (i := i) (by rw [← hst]; exact hc) ?_
      intro b hb x hx
      refine hown i x (path_reads (h i).honest (stackOf_perm (c.proc i) (viewOf i evs) f) hprog b ?_ x hx)
      rw [hst]; exact hb
    exact ⟨fun h => h.det hc2, fun e => e ▸ hc2⟩

/-- C124, what is written: a word that is a slot of no object admitted, at any of its events, by the filter
of the copy whose event it is, holds what the loader alone would have put there. -/
theorem C124_words_never_admitted {c : Copies ι} (ok : ∀ i, (c.proc i).Ok) {evs : List (ι × Op)}
    (h : ∀ i, History (c.proc i) False (viewOf i evs)) {S : ι → State}
    (hr : runAll c.env evs (fun i => (c.proc i).start) = .ok S) {a : Addr}
    (ha : ∀ pre j op post, evs = pre ++ (j, op) :: post → ∀ l,
      Admitted (filterAfter (viewOf j (pre ++ [(j, op)]))) (libsAfter c.libs (viewOf j (pre ++ [(j, op)]))) l →
      ∀ q ∈ rlOf l, a ≠ l.addr + q.1) (i : ι) :
    (S i).mem a = loaderMem c.mem (evs.map Prod.snd) a := by
  have key : ∀ (post pre : List (ι × Op)), evs = pre ++ post → ∀ {S0 S : ι → State},
      Lock c (fun _ => False) (fun _ _ => True) pre post S0 → runAll c.env post S0 = .ok S →
      ∀ k, (S k).mem a = (post.map Prod.snd).foldl (fun v op => loaderWord op a v) ((S0 k).mem a) := by
    intro post
    induction post with
    | nil => intro pre _ S0 S _ hr k; cases hr; rfl
    | cons e post ih =>
      intro pre he S0 S hl hr k
      obtain ⟨j, op⟩ := e
      obtain ⟨S1, h1, h2, s', h3, h4⟩ := lock_step ok (fun i => (h i).honest.own) he
        (fun _ hs => hs.elim) hl
      simp only [runAll, h1] at hr
      rw [ih (pre ++ [(j, op)]) (by rw [he]; simp) h2 hr k]
      rw [List.map_cons, List.foldl_cons]
      have hw : (S1 k).mem a = loaderWord op a ((S0 k).mem a) := by
        rw [(h2.same k j).2.1, h3, (hl.same k j).2.1]
        rcases h4.mem a with e | ⟨l, q, hacc, hq, e, -⟩
        · rw [e, loaderPart_mem]
        · have hadm := accepted_admitted hacc
          rw [loaderPart_linkMap, loaderPart_filter, lock_libs hl j, hl.flt j] at hadm
          refine absurd e (ha pre j op post he l ?_ q hq)
          rw [viewOf_append, viewOf_own, libsAfter_snoc, filterAfter, List.foldl_append]
          exact hadm
      rw [hw]
  exact key evs [] rfl (lock_start ok fun i => (h i).for) hr i

theorem filterAfter_const {g : Filter} (ops : List Op) (hm : Op.setFilter g ∈ ops)
    (ha : ∀ f, Op.setFilter f ∈ ops → f = g) : filterAfter ops = g := by
  induction ops using List.reverseRecOn with
  | nil => cases hm
  | append_singleton ops op ih =>
    rw [filterAfter, List.foldl_append]
    show filterStep (filterAfter ops) op = g
    by_cases ho : ∃ f, op = Op.setFilter f
    · obtain ⟨f, rfl⟩ := ho
      exact ha f (by simp)
    · have : Op.setFilter g ∈ ops := by
        rcases List.mem_append.1 hm with h | h
        · exact h
        · rw [List.mem_singleton] at h; exact absurd ⟨g, h.symm⟩ ho
      rw [← ih this (fun f hf => ha f (List.mem_append_left _ hf))]
      cases op <;> first | rfl | exact absurd ⟨_, rfl⟩ ho

theorem asSeen_filter (op : Op) (f : Filter) : Op.setFilter f ∉ asSeen op := by
  cases op <;> simp [asSeen]

theorem viewOf_filter {j : ι} {evs : List (ι × Op)} {f : Filter} :
    Op.setFilter f ∈ viewOf j evs ↔ (j, Op.setFilter f) ∈ evs := by
  unfold viewOf
  rw [List.mem_flatMap]
  constructor
  · rintro ⟨⟨k, op⟩, he, hx⟩
    by_cases hk : k = j
    · subst hk
      simp only [if_true, List.mem_singleton] at hx
      rw [hx]; exact he
    · rw [if_neg hk] at hx
      exact absurd hx (asSeen_filter _ _)
  · intro h
    exact ⟨_, h, by simp⟩

/-- C124, filters by name: every copy sets a filter by name before it does anything else and keeps it.
If no library's name contains two of the texts and libraries with different names share no GOT slot,
every copy intercepts its libraries in full, as if it were alone. -/
theorem C124_filters_by_name_keep_copies_apart {c : Copies ι} (ok : ∀ i, (c.proc i).Ok) {t : ι → Name}
    {evs : List (ι × Op)}
    (hfirst : ∀ pre j op post, evs = pre ++ (j, op) :: post →
      (j, Op.setFilter (.byName (some (t j)))) ∈ pre ++ [(j, op)])
    (honly : ∀ j f, (j, Op.setFilter f) ∈ evs → f = .byName (some (t j)))
    (hslots : ∀ i j, i ≠ j → ∀ l l', c.U l → c.U l' → Named (t i) l →
      Named (t j) l' → ∀ q ∈ rlOf l, ∀ q' ∈ rlOf l',
      l.addr + q.1 ≠ l'.addr + q'.1)
    (h : ∀ i, HistoryFor (c.proc i) True (Named (t i)) (viewOf i evs)) {own : HAddr → ι}
    (hown : ∀ i, ∀ x ∈ handlesOf (c.env i) (viewOf i evs), own x = i) {S : ι → State}
    (hr : runAll c.env evs (fun i => (c.proc i).start) = .ok S) (i : ι) (f : Name) {r : Addr}
    (hreg : registered (c.env i) (viewOf i evs) f ≠ [])
    (hreal : realAfter (c.env i) c.libs (viewOf i evs) f = some r) (hprog : c.P r = none) :
    ∃ order : List Frame, order.Perm (registered (c.env i) (viewOf i evs) f) ∧
      ∀ l ∈ libsAfter c.libs (viewOf i evs), Named (t i) l → ∀ off, (off, f) ∈ rlOf l →
        ∀ j path, CallsOf c.P own S ((S j).mem (l.addr + off)) path ↔ path = wrappers order ++ [r] := by
  have hal : ∀ k, True → LeaveAlone c k (Named (t k)) evs := by
    intro k _ pre j op post he hj l hU hadm q hq l' hU' hn q' hq'
    have hflt : filterAfter (viewOf j (pre ++ [(j, op)])) = .byName (some (t j)) := by
      refine filterAfter_const _ (viewOf_filter.2 (hfirst pre j op post he)) ?_
      intro g hg
      refine honly j g ?_
      rw [he]
      have := viewOf_filter.1 hg
      rw [show pre ++ (j, op) :: post = (pre ++ [(j, op)]) ++ post by simp]
      exact List.mem_append_left _ this
    obtain ⟨X, Y, -, hlets⟩ := hadm
    rw [hflt] at hlets
    exact hslots k j (fun e => hj e.symm) l' l hU' hU hn hlets q' hq' q hq
  obtain ⟨order, h1, -, h2⟩ := C124_copies_do_not_interfere ok h hal hown hr i trivial f hreg hreal hprog
  exact ⟨order, h1, h2⟩

end Gotcha
