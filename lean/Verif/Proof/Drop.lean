import Verif.Spec.Drop
import Verif.Proof.Calls
import Verif.Props.Threads
/-
C126: records are removed when their library goes, so the invariant holds with only the loaded objects
as "seen".
-/
namespace Gotcha
open HTable
open Spec (Abs)

theorem recAt_drop {libs : List LibRec} {lm : Lib → Option Nat} {l a : Lib} {r : Nat}
    (inj : ∀ {a a' r}, lm a = some r → lm a' = some r → a = a') (hr : lm l = some r) :
    recAt (libs.set r ⟨0, false, 0⟩) (upd lm l none) a = if a = l then none else recAt libs lm a := by
  unfold recAt
  by_cases e : a = l
  · subst e; rw [upd_self, if_pos rfl]; rfl
  · rw [upd_ne _ _ e, if_neg e]
    cases ha : lm a with
    | none => rfl
    | some x =>
      have : r ≠ x := fun c => e (inj ha (c ▸ hr))
      simp [List.getElem?_set_ne this]

/-- `remove_library` takes the record of one library away and leaves everything else. -/
theorem removeLib_post {C : Ctx} (w : World C.env C.U) {seen n s G A} (h : Post C seen n s G A)
    {l : Lib} (hl : C.U l) :
    ∃ s' lm', s.removeLib l = .ok s' ∧ Post C seen n s' { G with lm := lm' } A ∧
      (∀ a r, lm' a = some r → a ≠ l ∧ G.lm a = some r) ∧ s'.linkMap = s.linkMap ∧
      s'.inited = s.inited ∧ s'.mem = s.mem := by
  have hI := h.inv
  have hlk := lookup_lib w hI.lib.tab hl
  unfold State.removeLib
  rw [hlk]
  simp only [bind, Except.bind]
  cases hr : G.lm l with
  | none =>
    refine ⟨s, G.lm, rfl, h, ?_, rfl, rfl, rfl⟩
    intro a r ha
    refine ⟨?_, ha⟩
    rintro rfl
    rw [hr] at ha; cases ha
  | some r =>
    obtain ⟨t', b, e1, e2⟩ := remove_lib w hI.lib.tab hl
    simp only [e1]
    have hrec : ∀ a, recAt (s.libs.set r ⟨0, false, 0⟩) (upd G.lm l none) a =
        if a = l then none else recAt s.libs G.lm a := fun a => recAt_drop hI.lib.inj hr
    have hup : ∀ {a x}, upd G.lm l none a = some x → a ≠ l ∧ G.lm a = some x := by
      intro a x ha
      by_cases e : a = l
      · subst e; rw [upd_self] at ha; cases ha
      · rw [upd_ne _ _ e] at ha; exact ⟨e, ha⟩
    refine ⟨_, upd G.lm l none, rfl, ?_, fun a x ha => hup ha, rfl, rfl, rfl⟩
    refine ⟨?_, h.pend, h.dirty, h.seen, h.vd, h.pot, h.gen, h.dlb⟩
    exact { hI with
      lib :=
        { tab := e2
          bound := by
            intro a x ha
            rw [List.length_set]
            exact hI.lib.bound (hup ha).2
          inj := fun ha ha' => hI.lib.inj (hup ha).2 (hup ha').2
          seen := fun ha => hI.lib.seen (hup ha).2
          own := by
            intro a x y ha hy
            obtain ⟨g1, g2⟩ := hup ha
            have hne : r ≠ x := fun c => g1 (hI.lib.inj g2 (c ▸ hr))
            rw [List.getElem?_set_ne hne] at hy
            exact hI.lib.own g2 hy }
      wr := ⟨hI.wr.cover, by
        intro x hx rec hrec' hw
        rw [hrec] at hrec'
        split at hrec'
        · cases hrec'
        · exact hI.wr.flag x hx rec hrec' hw⟩
      slots := fun hs =>
        { all := (hI.slots hs).all
          cons := (hI.slots hs).cons
          gens := by
            intro a
            unfold genAt
            rw [hrec]
            split
            · exact Nat.zero_le _
            · exact (hI.slots hs).gens a
          slot := (hI.slots hs).slot } }

theorem removeLibs_post {C : Ctx} (w : World C.env C.U) (ls : List Lib) : ∀ {seen n s G A},
    Post C seen n s G A → (∀ l ∈ ls, C.U l) →
    ∃ s' lm', removeLibs ls s = .ok s' ∧ Post C seen n s' { G with lm := lm' } A ∧
      (∀ a r, lm' a = some r → a ∉ ls ∧ G.lm a = some r) ∧ s'.linkMap = s.linkMap ∧
      s'.inited = s.inited ∧ s'.mem = s.mem := by
  induction ls with
  | nil =>
    intro seen n s G A h _
    exact ⟨s, G.lm, rfl, h, fun a r ha => ⟨by simp, ha⟩, rfl, rfl, rfl⟩
  | cons l ls ih =>
    intro seen n s G A h hu
    obtain ⟨s1, lm1, a1, a2, a3, a4, a5, a6⟩ := removeLib_post w h (hu l (by simp))
    obtain ⟨s2, lm2, b1, b2, b3, b4, b5, b6⟩ := ih a2 (fun x hx => hu x (List.mem_cons_of_mem _ hx))
    refine ⟨s2, lm2, ?_, b2, ?_, b4.trans a4, b5.trans a5, b6.trans a6⟩
    · simp only [removeLibs, a1, bind, Except.bind, b1]
    · intro a r ha
      obtain ⟨c1, c2⟩ := b3 a r ha
      obtain ⟨d1, d2⟩ := a3 a r c2
      exact ⟨by simp [c1, d1], d2⟩

/-- Only the objects with a record and the loaded ones count. -/
theorem post_shrink {C : Ctx} {seen seen' n s G A} (h : Post C seen n s G A)
    (h1 : ∀ a r, G.lm a = some r → seen' a) (h2 : ∀ l ∈ s.linkMap, seen' l) :
    Post C seen' n s { G with seen := seen' } A := by
  have hI := h.inv
  refine ⟨?_, h.pend, h.dirty, rfl, h.vd, h.pot, h.gen, h.dlb⟩
  exact { hI with
    lib := { hI.lib with seen := fun ha => h1 _ _ ha }
    objs := fun l hl => ⟨(hI.objs l hl).1, h2 l hl⟩ }

/-- Between two events: the objects seen are the loaded ones. -/
def TopL (C : Ctx) (n : Nat) (s : State) (A : Abs) : Prop := Top C (fun l => l ∈ A.libs) n s A

theorem seen_loaded {l : Lib} {libs new : List Lib} :
    seenWith (fun l => l ∈ libs) new l ↔ l ∈ libs ++ new := by
  simp [seenWith]

open Spec in
theorem abs_step_libs (env : Env) (A : Abs) (op : Op) :
    (A.step env op).1.libs = loadStep A.libs op := by
  cases op with
  | wrap tbl tool =>
    show (Abs.wrap _ _ _ _).1.libs = _
    rw [(wrap_same (onMain_same env) _ _ _).libs, init_libs]; rfl
  | setPriority t v => show (Abs.init _ _).libs = _; rw [init_libs]; rfl
  | getPriority t => show (Abs.init _ _).libs = _; rw [init_libs]; rfl
  | setFilter f => rfl
  | dlopen ld => rw [step_dlopen]; split <;> simp [Abs.dlopen, loadStep]
  | load ld => rfl
  | unload dead => rfl

theorem seenAfter_loaded (env : Env) (A : Abs) {op : Op} (hu : ∀ dead, op ≠ .unload dead) :
    seenAfter (fun l => l ∈ A.libs) op = fun l => l ∈ (A.step env op).1.libs := by
  funext l
  rw [abs_step_libs]
  cases op with
  | unload dead => exact absurd rfl (hu dead)
  | dlopen ld => exact propext seen_loaded
  | load ld => exact propext seen_loaded
  | _ => rfl

/-- One event. -/
theorem stepDrop_spec {C : Ctx} (w : World C.env C.U) (henv : EnvOk C.env C.P) (hon : C.hon) {n s A}
    (hn : 3 ≤ n) (h : TopL C n s A) {op : Op} (hop : OpOk C (fun l => l ∈ A.libs) A op)
    (hsl : C.sl → n + 1 < 2 ^ 32) :
    ∃ s', stepDrop C.env (.op op) s = .ok (s', (A.step C.env op).2) ∧
      TopL C (n + 1) s' (A.step C.env op).1 := by
  by_cases hu : ∃ dead, op = .unload dead
  · obtain ⟨dead, rfl⟩ := hu
    have hl := top_libs h
    rcases h with h | ⟨v, G, h⟩
    · have hs : s.inited = false := by rw [h.st]; rfl
      refine ⟨s.unload dead, ?_, ?_⟩
      · simp only [stepDrop, hs, Bool.false_eq_true, if_false, bind, Except.bind, stepOp]; rfl
      · left
        have hop' : s.linkMap.filter (fun l => !dead l.lm) ≠ [] := by
          rcases hop with hop | hop
          · rw [h.abs] at hop; cases hop
          · rw [hl] at hop; exact hop
        have hp := pre_unload h hop'
        refine { hp with objs := ?_ }
        intro l hl'
        refine ⟨(hp.objs l hl').1, ?_⟩
        rw [abs_step_libs]
        show l ∈ A.libs.filter _
        rw [hl]; exact hl'
    · have hs : s.inited = true := h.inv.init
      obtain ⟨s1, lm1, a1, a2, a3, a4, a5, -⟩ := removeLibs_post (C := C.at v) w
        (s.linkMap.filter (fun l => dead l.lm)) h
        (fun l hl' => (h.inv.objs l (List.mem_filter.1 hl').1).1)
      refine ⟨s1.unload dead, ?_, Or.inr ⟨v, { G with lm := lm1, seen := fun l => l ∈ A.libs.filter (fun l => !dead l.lm) }, ?_⟩⟩
      · simp only [stepDrop, hs, if_true, bind, Except.bind, a1, stepOp]; rfl
      · refine (post_shrink (unload_post a2 dead) ?_ ?_).mono (by omega)
        · intro a r ha
          obtain ⟨c1, c2⟩ := a3 a r ha
          have hseen : a ∈ A.libs := by
            have := h.inv.lib.seen c2
            rw [h.seen] at this
            exact this
          show a ∈ A.libs.filter _
          rw [hl] at hseen ⊢
          rw [List.mem_filter] at c1 ⊢
          refine ⟨hseen, ?_⟩
          cases hd : dead a.lm
          · rfl
          · exact absurd ⟨hseen, hd⟩ c1
        · intro l hl'
          show l ∈ A.libs.filter _
          rw [hl, ← a4]; exact hl'
  · have hu' : ∀ dead, op ≠ .unload dead := fun d e => hu ⟨d, e⟩
    obtain ⟨s', o, e1, e2, e3, -⟩ := step_spec w (fun _ => henv) hn h hop hsl (fun hc => absurd hon hc)
    refine ⟨s', ?_, ?_⟩
    · rw [← e3 hon, ← e1]
      cases op with
      | unload dead => exact absurd rfl (hu' dead)
      | _ => rfl
    · unfold TopL
      rw [← seenAfter_loaded C.env A hu']
      exact e2

theorem stepRemove_spec {C : Ctx} (w : World C.env C.U) {n s A} (h : TopL C n s A)
    (hi : A.inited = true) {ls : List Lib} (hls : ∀ l ∈ ls, l ∈ A.libs) :
    ∃ s', stepDrop C.env (.remove ls) s = .ok (s', .unit) ∧ TopL C n s' A ∧ s'.mem = s.mem := by
  have hl := top_libs h
  rcases h with h | ⟨v, G, h⟩
  · rw [h.abs] at hi; cases hi
  · obtain ⟨s1, lm1, a1, a2, -, -, -, a6⟩ := removeLibs_post (C := C.at v) w ls h
      (fun l hl' => (h.inv.objs l (hl ▸ hls l hl')).1)
    refine ⟨s1, ?_, Or.inr ⟨v, _, a2⟩, a6⟩
    simp only [stepDrop, a1, bind, Except.bind]

end Gotcha

namespace Gotcha.Spec

/-- What the specification says such a history shows. -/
def dropObs (env : Env) : List DropEv → Abs → List Obs
  | [], _ => []
  | .op o :: es, A => (A.step env o).2 :: dropObs env es (A.step env o).1
  | .remove _ :: es, A => .unit :: dropObs env es A

theorem opsOf_append (xs ys : List DropEv) : opsOf (xs ++ ys) = opsOf xs ++ opsOf ys := by
  induction xs with
  | nil => rfl
  | cons x xs ih => cases x <;> simp [opsOf, ih]

theorem dropRun {p : Process} (ok : p.Ok) (es : List DropEv) : ∀ {pre : List Op} {s},
    Honest p.env p.P (pre ++ opsOf es) → MainAlone (pre ++ opsOf es) →
    (∀ f, Op.setFilter f ∈ opsOf es → f = .all) →
    pre.length + (opsOf es).length + 3 < 2 ^ 32 →
    DropLoader p (libsAfter p.libs pre) (pre.any isApi) es →
    DlRes (Abs.run p.env pre p.abs).1 →
    TopL (p.ctx True True) (3 + pre.length) s (Abs.run p.env pre p.abs).1 →
    ∃ s', runDrop p.env es s = .ok (s', dropObs p.env es (Abs.run p.env pre p.abs).1) ∧
      TopL (p.ctx True True) (3 + pre.length + (opsOf es).length) s'
        (Abs.run p.env (pre ++ opsOf es) p.abs).1 := by
  induction es with
  | nil =>
    intro pre s _ _ _ _ _ _ h
    refine ⟨s, rfl, ?_⟩
    simp only [opsOf, List.append_nil, List.length_nil]
    exact h
  | cons e es ih =>
    intro pre s hh hm hf hs hl hd h
    have hinit : (Abs.run p.env pre p.abs).1.inited = pre.any isApi := by
      rw [abs_start]; exact (run_prio p.env p.libs pre).2
    cases e with
    | op o =>
      simp only [opsOf] at hh hm hf hs ⊢
      obtain ⟨hl1, hl2⟩ := hl
      have hlibs := libs_run p pre
      have hh1 : Honest p.env p.P (pre ++ [o]) := by
        rw [List.append_cons] at hh
        refine ⟨?_, ?_, hh.own⟩
        · have := hh.nodup
          rw [List.flatMap_append, List.map_append, List.append_assoc] at this
          refine List.Nodup.sublist ?_ this
          exact List.Sublist.append_left (List.sublist_append_right _ _) _
        · intro u hu
          exact hh.prog u (by rw [List.flatMap_append]; exact List.mem_append_left _ hu)
      have hm1 : MainAlone (pre ++ [o]) := by
        intro a tbl tool b e1 e2 e3
        refine hm a tbl tool (b ++ opsOf es) ?_ e2 e3
        rw [List.append_cons, e1]; simp
      have hv := valid_of (p := p) (hon := True) (strict := True) (good := fun _ => True) [o]
        (pre := pre) (fun _ => hh1) (fun _ => hm1)
        (fun _ f hf' l _ => by
          rw [List.mem_singleton] at hf'
          rw [hf f (hf' ▸ List.mem_cons_self ..)]; trivial)
        hl1.for hlibs hinit hd
      have hop : OpOk (p.ctx True True) (fun l => l ∈ (Abs.run p.env pre p.abs).1.libs)
          (Abs.run p.env pre p.abs).1 o := by
        have := hv.1
        rwa [← hlibs] at this
      obtain ⟨s1, f1, f2⟩ := stepDrop_spec (C := p.ctx True True) ok.world hh.own trivial (by omega) h
        hop (fun _ => by simp only [List.length_cons] at hs; omega)
      have hd' := dlres_of [o] hl1 hlibs hinit hd
      have hr : (Abs.run p.env (pre ++ [o]) p.abs).1 = ((Abs.run p.env pre p.abs).1.step p.env o).1 :=
        run_snoc ..
      obtain ⟨s2, g1, g2⟩ := ih (pre := pre ++ [o]) (s := s1) (by rwa [List.append_cons] at hh)
        (by rwa [List.append_cons] at hm) (fun f hf' => hf f (List.mem_cons_of_mem _ hf'))
        (by simp only [List.length_append, List.length_cons, List.length_nil] at hs ⊢; omega)
        (by
          rw [libsAfter_snoc, List.any_append]
          simpa using hl2)
        hd' (by
          rw [hr]
          simp only [List.length_append, List.length_cons, List.length_nil]
          exact f2)
      refine ⟨s2, ?_, ?_⟩
      · rw [hr] at g1
        have f1' : stepDrop p.env (.op o) s = _ := f1
        simp only [runDrop, f1', g1, bind, Except.bind, dropObs]; rfl
      · rw [List.append_cons]
        simp only [List.length_append, List.length_cons, List.length_nil] at g2 ⊢
        rw [show 3 + pre.length + ((opsOf es).length + 1) = 3 + (pre.length + (0 + 1)) + (opsOf es).length
          by omega]
        exact g2
    | remove ls =>
      obtain ⟨hl1, hl2, hl3⟩ := hl
      obtain ⟨s1, f1, f2, -⟩ := stepRemove_spec (C := p.ctx True True) ok.world h (hinit.trans hl1)
        (ls := ls) (by rw [libs_run]; exact hl2)
      obtain ⟨s2, g1, g2⟩ := ih (pre := pre) (s := s1) hh hm hf hs hl3 hd f2
      refine ⟨s2, ?_, g2⟩
      have f1' : stepDrop p.env (.remove ls) s = _ := f1
      simp only [runDrop, f1', g1, bind, Except.bind, dropObs]

theorem drop_run {p : Process} (ok : p.Ok) {es : List DropEv} (h : DropHistory p es) :
    ∃ s, runDrop p.env es p.start = .ok (s, dropObs p.env es p.abs) ∧
      TopL (p.ctx True True) (3 + (opsOf es).length) s (Abs.run p.env (opsOf es) p.abs).1 := by
  have := dropRun ok es (pre := []) (s := p.start) h.honest h.main h.filter
    (by have := h.short; simp only [List.length_nil]; omega) h.loader
    ⟨fun _ _ => rfl, fun hc => by cases hc⟩ (start_top ok (fun _ => h.cons))
  simp only [List.nil_append, List.length_nil, Nat.add_zero] at this
  exact this

end Gotcha.Spec
