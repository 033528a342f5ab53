import Verif.Proof.View
/-
Stacks are the registered wrappers, sorted by priority, ties in order of registration.
-/
namespace Gotcha.Spec
open Gotcha

/-- How the stacks relate to the wrappers registered so far. -/
structure Ordered (set : Prop) (A : Abs) (seq : Name → List Frame) : Prop where
  perm : ∀ f, (A.stack f).Perm (seq f)
  sorted : set → ∀ f, (A.stack f).Pairwise (fun a b => A.prioOf b.tool ≤ A.prioOf a.tool)
  stable : set → ∀ f v, (A.stack f).filter (fun a => A.prioOf a.tool = v) =
    (seq f).filter (fun a => A.prioOf a.tool = v)

def seqAdd (seq : Name → List Frame) (rs : List (Name × UBinding)) : Name → List Frame :=
  fun f => seq f ++ framesIn rs f

theorem seqAdd_nil (seq) : seqAdd seq [] = seq := by funext f; simp [seqAdd, framesIn]
theorem seqAdd_append (seq a b) : seqAdd seq (a ++ b) = seqAdd (seqAdd seq a) b := by
  funext f; simp [seqAdd, framesIn_append]

section insertion
variable {α : Type} (q : α → Int)

theorem insertBefore_perm (p : α → Bool) (x : α) (L : List α) :
    (insertBefore p x L).Perm (x :: L) := by
  induction L with
  | nil => exact List.Perm.refl _
  | cons y L ih =>
    unfold insertBefore
    split
    · exact List.Perm.refl _
    · exact ((ih.cons y).trans (List.Perm.swap x y L))

theorem insertBefore_sorted (x : α) (L : List α) (h : L.Pairwise (fun a b => q b ≤ q a)) :
    (insertBefore (fun g => decide (q g < q x)) x L).Pairwise (fun a b => q b ≤ q a) := by
  induction L with
  | nil => simp [insertBefore]
  | cons y L ih =>
    rw [List.pairwise_cons] at h
    unfold insertBefore
    split
    · rename_i hlt
      simp only [decide_eq_true_eq] at hlt
      refine List.pairwise_cons.2 ⟨?_, List.pairwise_cons.2 h⟩
      intro z hz
      rcases List.mem_cons.1 hz with rfl | hz
      · omega
      · have := h.1 z hz; omega
    · rename_i hlt
      simp only [decide_eq_true_eq] at hlt
      refine List.pairwise_cons.2 ⟨?_, ih h.2⟩
      intro z hz
      rw [(insertBefore_perm _ x L).mem_iff] at hz
      rcases List.mem_cons.1 hz with rfl | hz
      · omega
      · exact h.1 z hz

theorem insertBefore_stable (x : α) (L : List α) (h : L.Pairwise (fun a b => q b ≤ q a)) (v : Int) :
    (insertBefore (fun g => decide (q g < q x)) x L).filter (fun a => decide (q a = v)) =
      (L ++ [x]).filter (fun a => decide (q a = v)) := by
  induction L with
  | nil => simp [insertBefore]
  | cons y L ih =>
    rw [List.pairwise_cons] at h
    unfold insertBefore
    split
    · rename_i hlt
      simp only [decide_eq_true_eq] at hlt
      by_cases hv : q x = v
      · have hnil : (y :: L).filter (fun a => decide (q a = v)) = [] := by
          rw [List.filter_eq_nil_iff]
          intro z hz
          simp only [decide_eq_true_eq]
          rcases List.mem_cons.1 hz with rfl | hz
          · omega
          · have := h.1 z hz; omega
        rw [List.filter_append, hnil, List.filter_cons, hnil]
        simp [hv]
      · rw [List.filter_append, List.filter_cons]
        simp [hv]
    · rw [List.filter_cons, ih h.2, List.cons_append, List.filter_cons]
end insertion

theorem push_prioOf (A : Abs) (tool p u) (t) : (A.push tool p u).1.prioOf t = A.prioOf t := by
  unfold Abs.prioOf; rw [push_prio]

theorem push_ordered {set A seq} (h : Ordered set A seq) (tool : Name) (u : UBinding) :
    Ordered set (A.push tool (A.prioOf tool) u).1 (seqAdd seq [(tool, u)]) := by
  have hstack : ∀ f, (A.push tool (A.prioOf tool) u).1.stack f =
      if u.name = f then insertBefore (fun g => decide (A.prioOf g.tool < A.prioOf tool))
        (frame tool u) (A.stack f) else A.stack f := by
    intro f
    unfold Abs.push
    by_cases e : u.name = f
    · subst e
      cases hs : A.stack u.name with
      | nil => simp [insertBefore, frame]
      | cons g gs => simp [frame]
    · have e' : f ≠ u.name := fun h => e h.symm
      cases hs : A.stack u.name <;> simp [upd_ne _ _ e', e]
  have hseq : ∀ f, seqAdd seq [(tool, u)] f = if u.name = f then seq f ++ [frame tool u] else seq f := by
    intro f
    by_cases e : u.name = f <;> simp [seqAdd, framesIn, e]
  refine ⟨?_, ?_, ?_⟩
  · intro f
    rw [hstack, hseq]
    split
    · refine (insertBefore_perm _ _ _).trans ?_
      exact ((h.perm f).cons _).trans (List.perm_append_singleton _ _).symm
    · exact h.perm f
  · intro hset f
    simp only [push_prioOf]
    rw [hstack]
    split
    · exact insertBefore_sorted (fun a : Frame => A.prioOf a.tool) (frame tool u) _ (h.sorted hset f)
    · exact h.sorted hset f
  · intro hset f v
    simp only [push_prioOf]
    rw [hstack, hseq]
    split
    · rw [List.filter_append, ← h.stable hset f v, ← List.filter_append]
      exact insertBefore_stable (fun a : Frame => A.prioOf a.tool) (frame tool u) _
        (h.sorted hset f) v
    · exact h.stable hset f v

theorem Ordered.prio {set A A' seq} (h : Ordered set A seq) (hs : A'.stack = A.stack)
    (hp : set → ∀ f, ∀ fr ∈ A.stack f, A'.prioOf fr.tool = A.prioOf fr.tool) :
    Ordered set A' seq := by
  refine ⟨fun f => hs ▸ h.perm f, ?_, ?_⟩
  · intro hset f
    rw [hs]
    refine (h.sorted hset f).imp_of_mem ?_
    intro a b ha hb hab
    rw [hp hset f a ha, hp hset f b hb]; exact hab
  · intro hset f v
    rw [hs]
    have h1 : (A.stack f).filter (fun a => decide (A'.prioOf a.tool = v)) =
        (A.stack f).filter (fun a => decide (A.prioOf a.tool = v)) :=
      List.filter_congr (fun a ha => by rw [hp hset f a ha])
    have h2 : (seq f).filter (fun a => decide (A'.prioOf a.tool = v)) =
        (seq f).filter (fun a => decide (A.prioOf a.tool = v)) :=
      List.filter_congr (fun a ha => by rw [hp hset f a ((h.perm f).mem_iff.2 ha)])
    rw [h1, h2]; exact h.stable hset f v

/-- `om` registers `rs` when "main" has not been wrapped yet, and keeps priorities. -/
structure OmOrd (om : Abs → Abs) (rs : List (Name × UBinding)) : Prop where
  ord : ∀ {set A seq}, Ordered set A seq →
    Ordered set (om A) (if A.mainWrapped then seq else seqAdd seq rs)
  prio : ∀ A t, (om A).prioOf t = A.prioOf t
  main : ∀ A, rs ≠ [] → (om A).mainWrapped = true

/-- Registrations of a table when the block for "main" registers `rs`. -/
def expandWith (rs : List (Name × UBinding)) (tool : Name) :
    Bool → List UBinding → List (Name × UBinding)
  | _, [] => []
  | mw, u :: us =>
    (if u.name = nm "main" ∧ mw = false then rs else []) ++
    (tool, u) :: expandWith rs tool (mw || decide (u.name = nm "main")) us

theorem expandWith_nil (tool : Name) (us : List UBinding) : ∀ mw,
    expandWith [] tool mw us = us.map (fun v => (tool, v)) := by
  induction us with
  | nil => intro mw; rfl
  | cons u us ih => intro mw; simp [expandWith, ih]

theorem expand_eq (env : Env) (tool : Name) (us : List UBinding) : ∀ mw,
    expandWith ((libcMainTable env ++ mainTable env).map (fun v => (nm "gotcha", v))) tool mw us =
      expand env tool mw us := by
  induction us with
  | nil => intro mw; rfl
  | cons u us ih => intro mw; rw [expandWith, expand, ih]

theorem pushAll_ordered {om rs} (ho : OmOrd om rs) {set} (tool : Name) (us : List UBinding) :
    ∀ {A seq}, Ordered set A seq →
    Ordered set (Abs.pushAll om tool us A).1 (seqAdd seq (expandWith rs tool A.mainWrapped us)) := by
  induction us with
  | nil => intro A seq h; simpa [Abs.pushAll, expandWith, seqAdd_nil] using h
  | cons u us ih =>
    intro A seq h
    rw [Abs.pushAll, expandWith]
    dsimp only
    generalize hA1 : (if u.name = nm "main" then om A else A) = A1
    have h1 : Ordered set A1
        (seqAdd seq (if u.name = nm "main" ∧ A.mainWrapped = false then rs else [])) := by
      rw [← hA1]
      by_cases e : u.name = nm "main"
      · rw [if_pos e]
        have := ho.ord h
        cases hm : A.mainWrapped with
        | true => simpa [e, hm, seqAdd_nil] using this
        | false => simpa [e, hm] using this
      · simpa [e, seqAdd_nil] using h
    have hp : A1.prioOf tool = A.prioOf tool := by
      rw [← hA1]; split
      · exact ho.prio A tool
      · rfl
    have h2 := push_ordered h1 tool u
    rw [hp] at h2
    have h3 := ih h2
    rw [push_mainW] at h3
    rw [seqAdd_append, show (tool, u) :: expandWith rs tool
      (A.mainWrapped || decide (u.name = nm "main")) us = [(tool, u)] ++ expandWith rs tool
      (A.mainWrapped || decide (u.name = nm "main")) us from rfl, seqAdd_append]
    by_cases hrs : rs = []
    · subst hrs
      rw [expandWith_nil] at h3 ⊢
      exact h3
    · have : A1.mainWrapped = (A.mainWrapped || decide (u.name = nm "main")) := by
        rw [← hA1]
        by_cases e : u.name = nm "main"
        · simp [e, ho.main A hrs]
        · simp [e]
      rw [this] at h3
      exact h3

theorem touch_ordered {set A seq} (h : Ordered set A seq) (t : Name) :
    Ordered set (A.touch t) seq :=
  h.prio rfl (fun _ _ _ _ => touch_prioOf _ _ _)

theorem id_omOrd : OmOrd id [] :=
  ⟨fun {_ A seq} h => by rw [seqAdd_nil]; split <;> exact h, fun _ _ => rfl, fun _ h => absurd rfl h⟩

theorem wrap_ordered {om rs} (ho : OmOrd om rs) {set A seq} (h : Ordered set A seq) (tbl tool) :
    Ordered set (Abs.wrap om tbl tool A).1
      (seqAdd seq (expandWith rs (toolName tool) A.mainWrapped tbl)) :=
  pushAll_ordered ho _ _ (touch_ordered h _)

theorem onMain_omOrd (env : Env) : OmOrd (Abs.onMain env)
    ((libcMainTable env ++ mainTable env).map (fun v => (nm "gotcha", v))) := by
  refine ⟨?_, ?_, fun A _ => onMain_mainW env A⟩
  · intro set A seq h
    unfold Abs.onMain
    split
    · exact h
    · dsimp only
      have h0 : Ordered set { A with mainWrapped := true } seq := h.prio rfl (fun _ _ _ _ => rfl)
      have h1 := wrap_ordered id_omOrd h0 (libcMainTable env) (some (nm "gotcha"))
      have h2 := wrap_ordered id_omOrd h1 (mainTable env) (some (nm "gotcha"))
      rw [expandWith_nil, expandWith_nil, ← seqAdd_append, ← List.map_append] at h2
      exact h2
  · exact onMain_prioOf env

theorem init_ordered (env : Env) {set A seq} (h : Ordered set A seq) :
    Ordered set (A.init env) (seqAdd seq
      (if A.inited = false then (dlTable env).map (fun v => (nm "gotcha", v)) else [])) := by
  unfold Abs.init
  split
  · rename_i hi
    simpa [hi, seqAdd_nil] using h
  · rename_i hi
    simp only [Bool.not_eq_true] at hi
    have h0 : Ordered set { A with inited := true, vdso := env.vdsoOf A.libs } seq :=
      h.prio rfl (fun _ _ _ _ => rfl)
    have := wrap_ordered (onMain_omOrd env) h0 (dlTable env) (some (nm "gotcha"))
    have hx : ∀ rs mw, expandWith rs (toolName (some (nm "gotcha"))) mw (dlTable env) =
        (dlTable env).map (fun v => (nm "gotcha", v)) := by
      intro rs mw
      simp only [dlTable, expandWith, List.map_cons, List.map_nil,
        show nm "dlopen" ≠ nm "main" by decide +kernel,
        show nm "dlsym" ≠ nm "main" by decide +kernel, false_and, if_false, List.nil_append,
        toolName, Option.getD_some]
    rw [hx] at this
    simpa [hi] using this

theorem settled_prefix {pre post : List Op} (h : Settled (pre ++ post)) : Settled pre := by
  intro a t v b e
  exact h a t v (b ++ post) (by rw [e]; simp)

theorem hasMain_any (tbl : List UBinding) :
    (tbl.any (fun u => u.name = nm "main")) = true ↔ hasMain tbl := by
  simp [hasMain, List.any_eq_true]

/-- State and registrations after a history. -/
theorem regs_snoc (env : Env) (ops : List Op) (op : Op) : ∀ ini mw,
    regs env ini mw (ops ++ [op]) = regs env ini mw ops ++
      opRegs env (ini || ops.any isApi)
        (mw || ops.any (fun o => (tableOf o).any (fun u => u.name = nm "main"))) op := by
  induction ops with
  | nil => intro ini mw; simp [regs]
  | cons o ops ih =>
    intro ini mw
    simp only [List.cons_append, regs, ih, List.append_assoc, List.any_cons, Bool.or_assoc]

theorem step_ordered (env : Env) {set A seq} (h : Ordered set A seq) (op : Op)
    (hop : set → ∀ t v, op = .setPriority t v →
      ∀ f, ∀ fr ∈ (A.init env).stack f, fr.tool = t → v = (A.init env).prioOf t) :
    Ordered set (A.step env op).1 (seqAdd seq (opRegs env A.inited A.mainWrapped op)) := by
  have hini := init_ordered env h
  cases op with
  | wrap tbl tool =>
    have := wrap_ordered (onMain_omOrd env) hini tbl tool
    rw [expand_eq, init_mainW, ← seqAdd_append] at this
    have hq : opRegs env A.inited A.mainWrapped (.wrap tbl tool) =
        (if A.inited = false then (dlTable env).map (fun v => (nm "gotcha", v)) else []) ++
          expand env (toolName tool) A.mainWrapped tbl := by
      simp [opRegs, isApi]
    rw [hq]
    exact this
  | setPriority t v =>
    have hq : opRegs env A.inited A.mainWrapped (.setPriority t v) =
        (if A.inited = false then (dlTable env).map (fun v => (nm "gotcha", v)) else []) := by
      simp [opRegs, isApi]
    rw [hq]
    refine hini.prio rfl ?_
    intro hset f fr hfr
    show (upd _ _ _ _ : Option Int).getD _ = _
    by_cases e : fr.tool = t
    · rw [e, upd_self, hop hset t v rfl f fr hfr e]; rfl
    · rw [upd_ne _ _ e]; rfl
  | getPriority t =>
    have hq : opRegs env A.inited A.mainWrapped (.getPriority t) =
        (if A.inited = false then (dlTable env).map (fun v => (nm "gotcha", v)) else []) := by
      simp [opRegs, isApi]
    rw [hq]
    exact hini
  | setFilter f => simpa [opRegs, isApi, seqAdd_nil, Abs.step] using h
  | dlopen ld =>
    rw [step_dlopen]
    have : opRegs env A.inited A.mainWrapped (.dlopen ld) = [] := by simp [opRegs, isApi]
    rw [this, seqAdd_nil]
    split <;> exact h.prio rfl (fun _ _ _ _ => rfl)
  | load ld =>
    have : opRegs env A.inited A.mainWrapped (.load ld) = [] := by simp [opRegs, isApi]
    rw [this, seqAdd_nil]
    exact h.prio rfl (fun _ _ _ _ => rfl)
  | unload dead =>
    have : opRegs env A.inited A.mainWrapped (.unload dead) = [] := by simp [opRegs, isApi]
    rw [this, seqAdd_nil]
    exact h.prio rfl (fun _ _ _ _ => rfl)

theorem run_ordered (env : Env) (libs : List Lib) (ops : List Op) :
    Ordered (Settled ops) (Abs.run env ops (Abs.start libs)).1 (registered env ops) := by
  induction ops using List.reverseRecOn with
  | nil => exact ⟨fun f => List.Perm.refl _, fun _ f => List.Pairwise.nil, fun _ f v => rfl⟩
  | append_singleton ops op ih =>
    rw [run_snoc]
    have h1 : (Abs.run env ops (Abs.start libs)).1.inited = (false || ops.any isApi) := by
      rw [(run_prio env libs ops).2, Bool.false_or]
    have h2 : (Abs.run env ops (Abs.start libs)).1.mainWrapped =
        (false || ops.any (fun o => (tableOf o).any (fun u => u.name = nm "main"))) := by
      rw [Bool.eq_iff_iff, run_mainW, Bool.false_or, List.any_eq_true]
      simp only [hasMain_any]
    have := step_ordered env (set := Settled (ops ++ [op]))
      (A := (Abs.run env ops (Abs.start libs)).1) (seq := registered env ops)
      ⟨ih.perm, fun hs => ih.sorted (settled_prefix hs), fun hs => ih.stable (settled_prefix hs)⟩
      op (by
        rintro hset t v rfl f fr hfr he
        rw [prio_init_run]
        rcases hset ops t v [] rfl with ⟨hg, hnu⟩ | hv
        · exfalso
          have hown : ∀ {f fr}, FromOwn env f fr → fr.tool = nm "gotcha" := by
            rintro f fr ⟨u, -, -, rfl⟩; rfl
          rcases init_mem _ _ _ _ hfr with hfr | hfr
          · rcases run_mem _ _ _ _ _ hfr with hfr | ⟨o, ho, tbl, tool, u, rfl, -, -, rfl⟩
            · exact hg (he.symm.trans (hown hfr))
            · exact hnu tbl tool ho he
          · exact hg (he.symm.trans (hown hfr))
        · exact hv)
    have hreg : registered env (ops ++ [op]) = seqAdd (registered env ops)
        (opRegs env (Abs.run env ops (Abs.start libs)).1.inited
          (Abs.run env ops (Abs.start libs)).1.mainWrapped op) := by
      funext f
      unfold registered seqAdd
      rw [regs_snoc, framesIn_append, h1, h2]
    rw [hreg]
    exact this

end Gotcha.Spec
