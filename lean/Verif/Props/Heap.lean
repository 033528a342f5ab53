import Verif.Proof.Heap
import Verif.Proof.Records
import Verif.Spec.Heap
import Verif.Demo.Bad
/-
C96: the memory GOTCHA holds.
-/
namespace Gotcha
open Spec Heap
open Gotcha.Prot (Ret)

namespace Heap

/-- What holds between two events. -/
def Idle (B : List Block) (s : State) (h : Mem) : Prop := Fresh s B h ∨ Inv s [] B h

theorem stepOp_idle {B : List Block} {env : Env} (op : Op) (s : State) (o h) (hi : Idle B s h) :
    match stepOp env op s o h with
    | .error .badFree => False
    | .error (.fault _) => True
    | .ok (s', h') => Idle B s' h' := by
  have fin : ∀ {α : Type} {m : M α} {m' : Oom.M α} {Q : α → Mem → Prop} {g : α → State},
      TriE (fun h => Fresh s B h ∨ Inv s [] B h) m m' Q → (∀ x h, Q x h → Idle B (g x) h) →
      match (m >>= fun x => pure (g x)) o h with
        | .error .badFree => False
        | .error (.fault _) => True
        | .ok (s', h') => Idle B s' h' := by
    intro α m m' Q g ht hq
    have a := ht o h hi
    cases hm : m o h with
    | error e =>
      rw [hm] at a
      rw [bind_err hm]
      cases e with
      | badFree => exact a
      | fault e => trivial
    | ok y =>
      rw [hm] at a
      obtain ⟨x', e', rfl, hx⟩ := a
      rw [bind_ok (x := y.1) (h' := y.2) hm]
      exact hq _ _ hx
  have mid : ∀ (m : M State), m = (m >>= fun x => pure x) := by
    intro m
    funext o h
    show _ = M.andThen _ _ _ _
    unfold M.andThen
    cases m o h <;> rfl
  have same : ∀ s', dims s' = dims s → sizes s' = sizes s → s'.inited = s.inited → Idle B s' h := by
    intro s' h1 h2 h3
    rcases hi with hi | hi
    · exact .inl ⟨h3.trans hi.ini, h1 ▸ hi.raw, hi.arr, h2 ▸ hi.size⟩
    · exact .inr (hi.sm ⟨h1, h2⟩)
  cases op with
  | wrap tbl tool => exact fin (gotchaWrap_tri env tbl tool s) fun x h hx => .inr hx
  | setPriority tool v =>
    show match gotchaSetPriority env tool v s o h with
      | .error .badFree => False | .error (.fault _) => True | .ok (s', h') => Idle B s' h'
    rw [mid (gotchaSetPriority env tool v s)]
    exact fin (g := fun x => x) (gotchaSetPriority_tri env tool v s) fun x h hx => .inr hx
  | getPriority tool => exact fin (gotchaGetPriority_tri env tool s) fun x h hx => .inr hx
  | setFilter f => exact same _ rfl rfl rfl
  | dlopen ld =>
    show match (if s.inited then dlopenWrapper env ld s else pure (s.load ld)) o h with
      | .error .badFree => False | .error (.fault _) => True | .ok (s', h') => Idle B s' h'
    by_cases hs : s.inited = true
    · rw [if_pos hs, mid (dlopenWrapper env ld s)]
      refine fin (g := fun x => x) (m' := Oom.dlopenWrapper env ld s) (Q := fun x => Inv x [] B)
        (Tri.pre (dlopenWrapper_tri env ld s) fun h hh => ?_) fun x h hx => .inr hx
      rcases hh with hh | hh
      · exact absurd (hh.ini.symm.trans hs) (by decide)
      · exact hh
    · rw [if_neg hs]
      exact same _ rfl rfl rfl
  | load ld => exact same _ rfl rfl rfl
  | unload dead => exact same _ rfl rfl rfl

theorem run_idle {B : List Block} {env : Env} (ops : List Op) : ∀ (s : State) (o h), Idle B s h →
    match run env ops s o h with
    | .error .badFree => False
    | .error (.fault _) => True
    | .ok (s', h') => Idle B s' h' := by
  induction ops with
  | nil => intro s o h hi; exact hi
  | cons op ops ih =>
    intro s o h hi
    have a := stepOp_idle (env := env) op s o h hi
    show match (stepOp env op s >>= fun s => run env ops s) o h with
      | .error .badFree => False | .error (.fault _) => True | .ok (s', h') => Idle B s' h'
    cases hm : stepOp env op s o h with
    | error e =>
      rw [hm] at a
      rw [bind_err hm]
      cases e with
      | badFree => exact a
      | fault e => trivial
    | ok y =>
      rw [hm] at a
      rw [bind_ok (x := y.1) (h' := y.2) hm]
      exact ih _ _ _ a

theorem start_idle (lm : List Lib) (mem : Addr → Addr) (wr : Addr → Bool) :
    Idle [] (State.start lm mem wr) {} := by
  refine .inl ⟨rfl, ⟨⟨[], ?_⟩, ?_, ?_⟩, fun w => rfl, fun w => by cases w <;> rfl⟩
  · simp [dims, State.start]
  · simp
  · simp

theorem filter_length_own {a : Option Nat} {k k' : Kind} {n : Nat} :
    ((own a k n).filter (fun b => b.kind = k')).length = if k = k' then a.toList.length else 0 := by
  cases a with
  | none => simp [own]
  | some i => by_cases e : k = k' <;> simp [own, e]

theorem tabs_count (sz A) (w : Which) :
    ((tabs sz A).filter (fun b => b.kind = .table w)).length = (A w).toList.length := by
  unfold tabs
  rw [List.filter_append, List.filter_append, List.length_append, List.length_append,
    filter_length_own, filter_length_own, filter_length_own]
  cases w <;> simp

theorem tabs_other (sz A) {k : Kind} (hk : ∀ w, k ≠ .table w) :
    ((tabs sz A).filter (fun b => b.kind = k)) = [] := by
  rw [List.filter_eq_nil_iff]
  intro b hb
  unfold tabs at hb
  have own_kind : ∀ {a k' n}, b ∈ own a k' n → b.kind = k' := by
    intro a k' n h
    cases a with
    | none => cases h
    | some i => simp only [own, List.mem_singleton] at h; rw [h]
  simp only [List.mem_append] at hb
  intro e
  have e := of_decide_eq_true e
  rcases hb with hb | hb | hb <;> exact hk _ (e.symm.trans (own_kind hb))

theorem raw_accounted {d : Dims} {sz : Which → Nat} {A : Which → Option Nat} {B : List Block} {h : Mem}
    (r : Raw d (tabs sz A) B h) (hA : h.arr = A) (hn : ∀ w, A w = none → sz w = 0) :
    (∀ w, Backed h w (sz w)) ∧ blocks h .newBindings = 0 ∧ blocks h .libRec = d.libs ∧
    blocks h .tool = d.tools ∧ bindRoom h = d.binds ∧ blocks h .bindRec = blocks h .bindHash := by
  obtain ⟨R, p, hB, hS, c1, c2, c3, c4⟩ := r.ex
  have cnt : ∀ k, blocks h k = ((tabs sz A).filter (fun b => b.kind = k)).length +
      R.countP (fun b => b.kind = k) := by
    intro k
    unfold blocks
    rw [(p.filter _).length_eq, List.filter_append, List.length_append, List.countP_eq_length_filter]
  have none_of : ∀ k, (∀ b ∈ R, b.kind ≠ k) → R.countP (fun b => b.kind = k) = 0 := by
    intro k hk
    rw [List.countP_eq_zero]
    intro b hb
    simpa using hk b hb
  refine ⟨fun w => ?_, ?_, ?_, ?_, ?_, ?_⟩
  · have hc : blocks h (.table w) = (A w).toList.length := by
      rw [cnt, tabs_count, none_of _ fun b hb => (hS b hb).2 w]
      rfl
    unfold Backed
    rw [hA]
    cases ha : A w with
    | none => rw [ha] at hc; exact ⟨hn w ha, hc⟩
    | some i =>
      rw [ha] at hc
      refine ⟨p.mem_iff.2 (List.mem_append_left _ ((tabs_perm sz A w).mem_iff.2 ?_)), hc⟩
      rw [ha]
      simp [own]
  · rw [cnt, tabs_other _ _ (by simp), none_of _ fun b hb => (hS b hb).1]
    rfl
  · rw [cnt, tabs_other _ _ (by simp), c1]; simp
  · rw [cnt, tabs_other _ _ (by simp), c2]; simp
  · unfold bindRoom
    rw [((p.filter _).map _).sum_nat, List.filter_append, tabs_other _ _ (by simp), List.nil_append, ← c3]
    clear p hB hS c1 c2 c3 c4 none_of cnt
    induction R with
    | nil => rfl
    | cons b R ih =>
      rw [List.map_cons, List.sum_cons, ← ih]
      by_cases e : b.kind = .bindArr <;> simp [e, Block.elems]
  · rw [cnt, cnt, tabs_other _ _ (by simp), tabs_other _ _ (by simp), c4]

theorem Idle.accounted {B : List Block} {s : State} {h : Mem} (hi : Idle B s h) : Accounted s h := by
  rcases hi with hi | hi
  · have ha : h.arr = fun _ => none := funext hi.arr
    have r : Raw (dims s) (tabs (sizes s) (fun _ => none)) B h := hi.raw
    obtain ⟨h1, h2, h3, h4, h5, h6⟩ := raw_accounted r ha (fun w _ => hi.size w)
    exact ⟨hi.raw.nodup, h1 .libs, h1 .funs, h1 .missing, h2, h3, h4, h5, h6⟩
  · have r := hi.raw
    rw [List.append_nil] at r
    obtain ⟨h1, h2, h3, h4, h5, h6⟩ := raw_accounted r rfl hi.nul
    exact ⟨hi.raw.nodup, h1 .libs, h1 .funs, h1 .missing, h2, h3, h4, h5, h6⟩

/-- The blocks that stay are among the kept ones. -/
theorem Idle.all {B : List Block} {s : State} {h : Mem} (hi : Idle B s h) :
    Idle (h.live.filter (fun b => decide (Stays' b))) s h := by
  have key : ∀ {d : Dims} {T : List Block} {T0}, Raw d T B h → T = tabs (sizes s) T0 →
      Raw d T (h.live.filter (fun b => decide (Stays' b))) h := by
    intro d T T0 r hT
    obtain ⟨R, p, hB, h2⟩ := r.ex
    refine ⟨⟨R, p, fun b hb => ?_, h2⟩, r.nodup, r.lt⟩
    rw [List.mem_filter] at hb
    have hs := of_decide_eq_true hb.2
    rcases List.mem_append.1 (p.mem_iff.1 hb.1) with h | h
    · exfalso
      have : ∀ w, b.kind ≠ .table w := fun w e => hs w e
      have h3 := tabs_other (sizes s) T0 (k := b.kind) this
      rw [List.filter_eq_nil_iff] at h3
      exact h3 b (hT ▸ h) (by simp)
    · exact h
  rcases hi with hi | hi
  · exact .inl ⟨hi.ini, key (T0 := fun _ => none) hi.raw rfl, hi.arr, hi.size⟩
  · exact .inr ⟨key (T0 := h.arr) hi.raw (List.append_nil _), hi.nul, hi.ini⟩

end Heap

/-- C96: whichever allocations fail, in every history GOTCHA frees only blocks that are allocated. -/
theorem C96_no_bad_free (env : Env) (ops : List Op) (lm : List Lib) (mem : Addr → Addr) (wr : Addr → Bool)
    (o : Nat → Bool) : Heap.run env ops (State.start lm mem wr) o {} ≠ .error .badFree := by
  intro e
  have := Heap.run_idle (env := env) ops _ o {} (Heap.start_idle lm mem wr)
  rw [e] at this
  exact this

/-- C96: and after every history all its memory is accounted for: each global table has exactly one array, of
exactly its size; there is one record per library seen, one block per tool; the arrays of internal bindings
hold exactly the internal bindings there are; no temporary table is left. -/
theorem C96_accounted (env : Env) (ops : List Op) (lm : List Lib) (mem : Addr → Addr) (wr : Addr → Bool)
    (o : Nat → Bool) (s : State) (h : Mem)
    (e : Heap.run env ops (State.start lm mem wr) o {} = .ok (s, h)) : Accounted s h := by
  have := Heap.run_idle (env := env) ops _ o {} (Heap.start_idle lm mem wr)
  rw [e] at this
  exact Heap.Idle.accounted this

/-- C96: library records, tools and internal bindings are never freed nor moved: whatever follows, a block
that is not the array of a table stays allocated. -/
theorem C96_kept (env : Env) (ops ops' : List Op) (lm : List Lib) (mem : Addr → Addr) (wr : Addr → Bool)
    (o : Nat → Bool) (s s' : State) (h h' : Mem)
    (e : Heap.run env ops (State.start lm mem wr) o {} = .ok (s, h))
    (e' : Heap.run env ops' s o h = .ok (s', h')) :
    ∀ b ∈ h.live, (∀ w, b.kind ≠ .table w) → b ∈ h'.live := by
  intro b hb hk
  have h1 := Heap.run_idle (env := env) ops _ o {} (Heap.start_idle lm mem wr)
  rw [e] at h1
  have h2 := Heap.run_idle (env := env) ops' s o h (Heap.Idle.all h1)
  rw [e'] at h2
  have hm : b ∈ h.live.filter (fun b => decide (Heap.Stays' b)) := by
    rw [List.mem_filter]
    exact ⟨hb, decide_eq_true hk⟩
  rcases h2 with h2 | h2
  · obtain ⟨R, p, hB, -⟩ := h2.raw.ex
    exact p.mem_iff.2 (List.mem_append_right _ (hB b hm))
  · obtain ⟨R, p, hB, -⟩ := h2.raw.ex
    exact p.mem_iff.2 (List.mem_append_right _ (hB b hm))

namespace Heap

theorem hbind_ok {α β : Type} {m : M α} {f : α → M β} {o : Nat → Bool} {h : Mem} {y : β × Mem}
    (e : (m >>= f) o h = .ok y) : ∃ x h', m o h = .ok (x, h') ∧ f x o h' = .ok y := by
  cases hm : m o h with
  | error e' => rw [bind_err hm] at e; cases e
  | ok x => rw [bind_ok (x := x.1) (h' := x.2) hm] at e; exact ⟨x.1, x.2, rfl, e⟩

theorem hlift_ok {α : Type} {x : Except Fault α} {o : Nat → Bool} {h h' : Mem} {y : α}
    (e : lift x o h = .ok (y, h')) : x = .ok y ∧ h = h' := by
  cases x with
  | error f => cases e
  | ok x => cases e; exact ⟨rfl, rfl⟩

/-- The heap is as before, and so are the library records and the loaded objects. -/
structure Still (s : State) (h : Mem) (s' : State) (h' : Mem) : Prop where
  heap : h' = h
  tab : s'.libTab = s.libTab
  map : s'.linkMap = s.linkMap

theorem Still.of_rv {s s' : State} {h h' : Mem} (e : h = h') (r : rv s' = rv s) : Still s h s' h' :=
  ⟨e.symm, congrArg (·.1) r, congrArg (·.2.2.1) r⟩

theorem Still.trans {s s' s'' : State} {h h' h'' : Mem} (a : Still s h s' h') (b : Still s' h' s'' h'') :
    Still s h s'' h'' := ⟨b.heap.trans a.heap, b.tab.trans a.tab, b.map.trans a.map⟩

theorem Still.recorded {s s' : State} {h h' : Mem} (a : Still s h s' h') {l : Lib} (hl : Recorded s l) :
    Recorded s' l := by
  obtain ⟨r, e⟩ := hl
  exact ⟨r, by rw [a.tab]; exact e⟩

theorem ensureLib_still {s : State} {l : Lib} {o h x h'} (hl : Recorded s l)
    (e : ensureLib s l o h = .ok (x, h')) : Still s h x.1 h' := by
  obtain ⟨r, hr⟩ := hl
  obtain ⟨y, h1, e1, e⟩ := hbind_ok e
  obtain ⟨ke1, rfl⟩ := hlift_ok e1
  rw [hr] at ke1
  cases ke1
  cases e
  exact ⟨rfl, rfl, rfl⟩

theorem prepareLoop_still {env : Env} {name hd o} (ls : List Lib) : ∀ {s : State} {h x h'},
    (∀ l ∈ ls, Recorded s l) → prepareLoop env name hd ls s o h = .ok (x, h') → Still s h x.1 h' := by
  induction ls with
  | nil => intro s h x h' _ e; cases e; exact ⟨rfl, rfl, rfl⟩
  | cons l ls ih =>
    intro s h x h' hl e
    obtain ⟨y, h1, e1, e⟩ := hbind_ok e
    have a := ensureLib_still (hl l (by simp)) e1
    obtain ⟨s1, r1⟩ := y
    obtain ⟨z, h2, e2, e⟩ := hbind_ok e
    obtain ⟨ke2, q⟩ := hlift_ok e2
    have b := a.trans (.of_rv q (lookupExported_rv ke2))
    obtain ⟨s2, r2⟩ := z
    cases r2 with
    | some v =>
      obtain ⟨s3, h3, e3, e⟩ := hbind_ok e
      obtain ⟨ke3, q3⟩ := hlift_ok e3
      cases e
      exact b.trans (.of_rv q3 (setInternal_rv ke3))
    | none => exact b.trans (ih (fun l' hl' => b.recorded (hl l' (by simp [hl']))) e)

theorem prepareSymbol_still {env : Env} {s : State} {b o h x h'}
    (hl : ∀ l ∈ s.linkMap, Recorded s l) (e : prepareSymbol env s b o h = .ok (x, h')) :
    Still s h x.1 h' := by
  obtain ⟨y, h1, e1, e⟩ := hbind_ok e
  obtain ⟨-, rfl⟩ := hlift_ok e1
  exact prepareLoop_still _ hl e

theorem perBinding_still {env : Env} {k d} {s : State} {o h x h'}
    (hl : ∀ l ∈ s.linkMap, Recorded s l) (e : perBinding env k d s o h = .ok (x, h')) :
    Still s h x.1 h' := by
  cases k with
  | none => cases e
  | some k =>
    cases d with
    | none => cases e
    | some b =>
      obtain ⟨y, h1, e1, e⟩ := hbind_ok e
      obtain ⟨-, rfl⟩ := hlift_ok e1
      obtain ⟨z, h2, e2, e⟩ := hbind_ok e
      have a := prepareSymbol_still hl e2
      obtain ⟨s2, ok⟩ := z
      cases ok with
      | false => cases e; exact a
      | true =>
        obtain ⟨w, h3, e3, e⟩ := hbind_ok e
        obtain ⟨-, rfl⟩ := hlift_ok e3
        cases e
        exact ⟨a.heap, a.tab, a.map⟩

theorem foreachNotFound_still {env : Env} {o} : ∀ (n : Nat) (i : Option Nat) {s : State} {h x h'},
    (∀ l ∈ s.linkMap, Recorded s l) → foreachNotFound env n i s o h = .ok (x, h') → Still s h x h' := by
  intro n
  induction n with
  | zero =>
    intro i s h x h' _ e
    cases i with
    | none => cases e; exact ⟨rfl, rfl, rfl⟩
    | some i => cases e
  | succ n ih =>
    intro i s h x h' hl e
    cases i with
    | none => cases e; exact ⟨rfl, rfl, rfl⟩
    | some i =>
      rw [foreachNotFound] at e
      cases hc : s.notFound.slots[i]? with
      | none => rw [hc] at e; cases e
      | some en =>
        rw [hc] at e
        obtain ⟨y, h1, e1, e⟩ := hbind_ok e
        have a := perBinding_still hl e1
        obtain ⟨s1, stop⟩ := y
        cases stop with
        | true => cases e; exact a
        | false =>
          cases hc : s1.notFound.slots[i]? with
          | none => simp only [hc, Bool.false_eq_true, if_false] at e; cases e
          | some en =>
            simp only [hc, Bool.false_eq_true, if_false] at e
            exact a.trans (ih _ (fun l hm => a.recorded (hl l (a.map ▸ hm))) e)

theorem markGotWritable_rv {env : Env} {s s' : State} {l} (e : s.markGotWritable env l = .ok s') :
    rv s' = rv s := by
  unfold State.markGotWritable at e
  split at e
  · cases e
  · cases e; exact unprotect_rv _ _

theorem updateLib_still {env : Env} {t : HTable Name Nat} {s : State} {l n o h x h'} (hl : Recorded s l)
    (e : updateLib env t s l n o h = .ok (x, h')) : Still s h x h' := by
  obtain ⟨y, h1, e1, e⟩ := hbind_ok e
  have a := ensureLib_still hl e1
  obtain ⟨s1, r⟩ := y
  obtain ⟨acc, h2, e2, e⟩ := hbind_ok e
  obtain ⟨-, rfl⟩ := hlift_ok e2
  have tail : ∀ {s2 : State} {g : Mem}, Still s h s2 g →
      ((lift (Elf.relocs l.img) >>= fun r' => match r' with
        | none => pure s2
        | some rl => lift (writeRelocs t l.addr rl s2) >>= fun s =>
          pure { s with libs := s.libs.modify r (fun x => { x with gen := s.gen }) } : M State) o g =
        .ok (x, h')) → Still s h x h' := by
    intro s2 g b e
    obtain ⟨rl, h4, e4, e⟩ := hbind_ok e
    obtain ⟨-, rfl⟩ := hlift_ok e4
    cases rl with
    | none => cases e; exact b
    | some rl =>
      obtain ⟨s3, h5, e5, e⟩ := hbind_ok e
      obtain ⟨ke5, rfl⟩ := hlift_ok e5
      cases e
      have c := b.trans (.of_rv rfl (writeRelocs_rv _ ke5))
      exact ⟨c.heap, c.tab, c.map⟩
  cases acc with
  | false => cases e; exact a
  | true =>
    simp only [Bool.not_true, Bool.false_eq_true, if_false] at e
    cases hr : s1.libs[r]? with
    | none => rw [hr] at e; cases e
    | some rec =>
      rw [hr] at e
      dsimp only at e
      by_cases hg : rec.gen = s1.gen
      · rw [if_pos hg] at e; cases e; exact a
      · rw [if_neg hg] at e
        by_cases hw : rec.writable = true
        · rw [if_pos hw] at e; exact tail a e
        · rw [if_neg hw] at e
          obtain ⟨s2, h3, e3, e⟩ := hbind_ok e
          obtain ⟨ke3, rfl⟩ := hlift_ok e3
          have c := a.trans (.of_rv rfl (markGotWritable_rv ke3))
          exact tail (s2 := { s2 with libs := s2.libs.modify r (fun x => { x with writable := true }) })
            ⟨c.heap, c.tab, c.map⟩ e

theorem updateLibs_still {env : Env} {t : HTable Name Nat} {o} (ls : List Lib) : ∀ {s : State} {h x h'},
    (∀ l ∈ ls, Recorded s l) → updateLibs env t ls s o h = .ok (x, h') → Still s h x h' := by
  induction ls with
  | nil => intro s h x h' _ e; cases e; exact ⟨rfl, rfl, rfl⟩
  | cons l ls ih =>
    intro s h x h' hl e
    obtain ⟨s1, h1, e1, e⟩ := hbind_ok e
    have a := updateLib_still (hl l (by simp)) e1
    exact a.trans (ih (fun l' hl' => a.recorded (hl l' (by simp [hl']))) e)

end Heap

/-- C96: a dlopen after which only objects are loaded that GOTCHA has a record of already (a second dlopen of
the same library) neither allocates nor frees anything, whatever is still to be resolved. -/
theorem C96_reopen (env : Env) (ld : Load) (s s' : State) (o : Nat → Bool) (h h' : Mem)
    (hl : ∀ l ∈ s.linkMap ++ ld.libs, Recorded s l)
    (e : Heap.dlopenWrapper env ld s o h = .ok (s', h')) : h' = h := by
  obtain ⟨y, h1, e1, e⟩ := Heap.hbind_ok e
  obtain ⟨-, rfl⟩ := Heap.hlift_ok e1
  obtain ⟨s1, h2, e2, e⟩ := Heap.hbind_ok e
  have a := Heap.foreachNotFound_still _ _ (s := s.load ld) hl e2
  exact (a.trans (Heap.updateLibs_still _ (fun l hm => a.recorded (hl l (by
    rw [a.map] at hm; exact hm))) e)).heap

namespace Heap

theorem Out.agrees {α : Type} {Q : α → Mem → Prop} {r : Except Bad (α × Mem)} {r' : Except Fault (α × Nat)}
    (h : Out (fun x x' h => x = x' ∧ Q x h) r r') : Agrees r r' := by
  cases r with
  | error e =>
    cases e with
    | badFree => exact h
    | fault f => exact h
  | ok y =>
    obtain ⟨x', e, rfl, -⟩ := h
    exact e

end Heap

/-- C96: the frees change nothing else: after every history each call does what the engine of C75, C76 and C77
does, which never frees, with the same allocations. -/
theorem C96_agrees (env : Env) (ops : List Op) (lm : List Lib) (mem : Addr → Addr) (wr : Addr → Bool)
    (o : Nat → Bool) (s : State) (h : Mem)
    (e : Heap.run env ops (State.start lm mem wr) o {} = .ok (s, h)) :
    (∀ table tool, Agrees (Heap.gotchaWrap env table tool s o h) (Oom.gotchaWrap env table tool s o h.calls)) ∧
    (∀ tool v, Agrees (Heap.gotchaSetPriority env tool v s o h)
      (Oom.gotchaSetPriority env tool v s o h.calls)) ∧
    (∀ tool, Agrees (Heap.gotchaGetPriority env tool s o h) (Oom.gotchaGetPriority env tool s o h.calls)) ∧
    (s.inited = true → ∀ ld, Agrees (Heap.dlopenWrapper env ld s o h)
      (Oom.dlopenWrapper env ld s o h.calls)) := by
  have hi := Heap.run_idle (env := env) ops _ o {} (Heap.start_idle lm mem wr)
  rw [e] at hi
  refine ⟨fun table tool => (Heap.gotchaWrap_tri env table tool s o h hi).agrees,
    fun tool v => (Heap.gotchaSetPriority_tri env tool v s o h hi).agrees,
    fun tool => (Heap.gotchaGetPriority_tri env tool s o h hi).agrees, fun hs ld => ?_⟩
  rcases hi with hi | hi
  · exact absurd (hi.ini.symm.trans hs) (by decide)
  · exact (Heap.dlopenWrapper_tri (B := []) (T := []) env ld s o h hi).agrees

/-- Non-vacuity of C96: the history of `Demo/World`, without failing allocations and with the hash table of
the bindings of a `gotcha_wrap` missing, and the blocks left. -/
def heapOps : List Op :=
  [.wrap [⟨nm "foo", 0x50a, 10⟩, ⟨nm "bar", 0x50b, 11⟩] (some Demo.B), .dlopen Demo.loadPlug,
    .wrap [⟨nm "foo", 0x50c, 12⟩] (some Demo.A)]

/-- The outcome of a history as far as memory goes: allocations made, then blocks by purpose. -/
def heapView (r : Except Bad (State × Mem)) : Option (Nat × List Nat) :=
  match r with
  | .ok (_, h) => some (h.calls, [.table .libs, .table .funs, .table .missing, .newBindings, .libRec, .tool,
      .childTools, .bindRec, .bindArr, .bindHash].map (blocks h))
  | .error _ => none

theorem heap_demo :
    heapView (Heap.run Demo.env heapOps Demo.proc.start (fun _ => true) {}) =
      some (23, [1, 1, 1, 0, 3, 3, 3, 3, 3, 3]) ∧
    heapView (Heap.run Demo.env heapOps Demo.proc.start (fun i => i != 22) {}) =
      some (23, [1, 1, 1, 0, 3, 3, 3, 2, 3, 2]) := by
  decide +kernel

/-- Non-vacuity of `C96_reopen`: after that history, a dlopen of what is loaded already. -/
example : ∃ s h s' h', Heap.run Demo.env heapOps Demo.proc.start (fun _ => true) {} = .ok (s, h) ∧
    (∀ l ∈ s.linkMap ++ Demo.noLoad.libs, Recorded s l) ∧ s.linkMap.length = 3 ∧
    Heap.dlopenWrapper Demo.env Demo.noLoad s (fun _ => true) h = .ok (s', h') := by
  have key : ∀ {r : Except Bad (State × Mem)} {p : State → Mem → Bool},
      (match r with | .ok (s, h) => p s h | .error _ => false) = true →
      ∃ s h, r = .ok (s, h) ∧ p s h = true := by
    intro r p h
    cases r with
    | error e => cases h
    | ok y => exact ⟨y.1, y.2, rfl, h⟩
  obtain ⟨s, h, e, hp⟩ := key (r := Heap.run Demo.env heapOps Demo.proc.start (fun _ => true) {})
    (p := fun s h => (match Heap.dlopenWrapper Demo.env Demo.noLoad s (fun _ => true) h with
      | .ok (_, _) => true
      | .error _ => false) && (decide (s.linkMap.length = 3) && (s.linkMap ++ Demo.noLoad.libs).all (fun l =>
        match s.libTab.lookup (linkMapHash l) (linkMapEq l.lm) with
        | .ok (some _) => true
        | _ => false))) (by decide +kernel)
  rw [Bool.and_eq_true, Bool.and_eq_true] at hp
  obtain ⟨s', h', e', -⟩ := key (p := fun _ _ => true) hp.1
  refine ⟨s, h, s', h', e, fun l hl => ?_, of_decide_eq_true hp.2.1, e'⟩
  have := List.all_eq_true.1 hp.2.2 l hl
  unfold Recorded
  split at this
  · rename_i r hr; exact ⟨r, hr⟩
  · cases this

/-- C96, what fails: the memory of a library record is not given back when the library is closed.  After
dlopen and dlclose of the plugin everything is loaded as before, but GOTCHA holds a block more. -/
theorem C96_dlclose_refuted :
    ¬ ∀ (env : Env) (ops : List Op) (ld : Load) (lm : List Lib) (mem : Addr → Addr) (wr : Addr → Bool)
      (s s' : State) (h h' : Mem),
      Heap.run env ops (State.start lm mem wr) (fun _ => true) {} = .ok (s, h) →
      Heap.run env [.dlopen ld, .unload (fun a => decide (a ∈ ld.libs.map (·.lm)))] s (fun _ => true) h =
        .ok (s', h') →
      s'.linkMap.map (·.lm) = s.linkMap.map (·.lm) → h'.live.length = h.live.length := by
  intro H
  have key : ∀ {r : Except Bad (State × Mem)} {p : State → Mem → Bool},
      (match r with | .ok (s, h) => p s h | .error _ => false) = true →
      ∃ s h, r = .ok (s, h) ∧ p s h = true := by
    intro r p h
    cases r with
    | error e => cases h
    | ok y => exact ⟨y.1, y.2, rfl, h⟩
  obtain ⟨s, h, e, hp⟩ := key (r := Heap.run Demo.env [.getPriority Demo.A] Demo.proc.start (fun _ => true) {})
    (p := fun s h => match Heap.run Demo.env [.dlopen Demo.loadPlug,
        .unload (fun a => decide (a ∈ Demo.loadPlug.libs.map (·.lm)))] s (fun _ => true) h with
      | .ok (s', h') => decide (s'.linkMap.map (·.lm) = s.linkMap.map (·.lm)) &&
          decide (h'.live.length ≠ h.live.length)
      | .error _ => false) (by decide +kernel)
  obtain ⟨s', h', e', hq⟩ := key hp
  rw [Bool.and_eq_true] at hq
  exact of_decide_eq_true hq.2 (H _ _ _ _ _ _ s s' h h' e e' (of_decide_eq_true hq.1))

/-- Not vacuous: the accounts of that history, and after one more registration everything but tables is still there. -/
example : ∃ s h s' h', Heap.run Demo.env heapOps Demo.proc.start (fun _ => true) {} = .ok (s, h) ∧
    Heap.run Demo.env [.wrap [⟨nm "bar", 0x50d, 13⟩] (some Demo.A)] s (fun _ => true) h = .ok (s', h') ∧
    Accounted s h ∧ h.live.length < h'.live.length ∧
    ∀ b ∈ h.live, (∀ w, b.kind ≠ .table w) → b ∈ h'.live := by
  have key : ∀ {r : Except Bad (State × Mem)} {p : State → Mem → Bool},
      (match r with | .ok (s, h) => p s h | .error _ => false) = true →
      ∃ s h, r = .ok (s, h) ∧ p s h = true := by
    intro r p h
    cases r with
    | error e => cases h
    | ok y => exact ⟨y.1, y.2, rfl, h⟩
  obtain ⟨s, h, e, hp⟩ := key (r := Heap.run Demo.env heapOps Demo.proc.start (fun _ => true) {})
    (p := fun s h => match Heap.run Demo.env [.wrap [⟨nm "bar", 0x50d, 13⟩] (some Demo.A)] s (fun _ => true) h with
      | .ok (_, h') => decide (h.live.length < h'.live.length)
      | .error _ => false) (by decide +kernel)
  obtain ⟨s', h', e', hq⟩ := key hp
  exact ⟨s, h, s', h', e, e', C96_accounted _ _ _ _ _ _ _ _ e,
    of_decide_eq_true hq, C96_kept _ _ _ _ _ _ _ _ _ _ _ e e'⟩

end Gotcha
