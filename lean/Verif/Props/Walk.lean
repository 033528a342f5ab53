import Verif.Proof.Walk
/-
C125.  The walk over the link map (`update_all_library_gots`) while other threads load and unload
objects.
-/
namespace Gotcha
open Spec

/-! ### undisturbed -/

theorem walk_alone (env : Env) (t : HTable Name BId) (o : Option (HTable Name BId)) (Y : List Lib) :
    ∀ {s : State} {X : List Lib} {seen : List Lib}, o.getD s.funTab = t → s.linkMap = X ++ Y →
    (s.linkMap.map Lib.lm).Nodup →
    runWalk env o (List.replicate (2 * Y.length) .step) s ⟨.ofPtr (Y.head?.map Lib.lm), seen⟩ =
      (updateLibs env t Y s).map (fun s' => (s', ⟨.fin, Y.reverse ++ seen⟩)) := by
  induction Y with
  | nil => intro s X seen _ _ _; rfl
  | cons l Y ih =>
    intro s X seen ht h1 hn
    have hna : nodeAt s.linkMap l.lm = some (l, Y.head?.map Lib.lm) := by
      rw [h1] at hn ⊢; exact nodeAt_split hn
    have hY : (Y.head?.map Lib.lm).isSome = !Y.isEmpty := by cases Y <;> rfl
    rw [List.length_cons, show 2 * (Y.length + 1) = 2 * Y.length + 1 + 1 by omega, List.replicate_succ,
      List.replicate_succ]
    simp only [runWalk, walkStep, List.head?_cons, Option.map_some, WPos.ofPtr, hna, hY, ht, bind,
      Except.bind, updateLibs]
    cases hu : s.updateLib env t l (!Y.isEmpty) with
    | error e => rfl
    | ok s1 =>
      obtain ⟨f1, f2⟩ := updateLib_frame hu
      simp only [f1, hna]
      have := ih (s := s1) (X := X ++ [l]) (seen := l :: seen) (by rw [f2]; exact ht)
        (by rw [f1, h1]; simp) (by rw [f1]; exact hn)
      refine Eq.trans ?_ (this.trans ?_)
      · cases Y <;> rfl
      · simp

/-- C125.  A walk that nobody disturbs is the function: with two parts per library it ends, with the
state of `update_all_library_gots`, or it crashes like it; and it has been to every library, in order. -/
theorem C125_undisturbed (env : Env) (t : HTable Name BId) (s : State)
    (hn : (s.linkMap.map Lib.lm).Nodup) :
    runWalk env (some t) (List.replicate (2 * s.linkMap.length) .step) s (Walk.start s) =
      (s.updateAll env t).map (fun s' => (s', ⟨.fin, s.linkMap.reverse⟩)) := by
  have := walk_alone env t (some t) s.linkMap (s := s) (X := []) (seen := []) rfl rfl hn
  rw [List.append_nil] at this
  exact this

/-! ### unloading the object under the walk -/

theorem notReused_run {env : Env} {t : Option (HTable Name BId)} {a : Addr} (es : List WalkEv) :
    ∀ {s : State} {w : Walk}, NotReused a es → (∀ l ∈ s.linkMap, l.lm ≠ a) →
    ∃ s', runWalk env t es s w = .ok (s', w) ∧ ∀ l ∈ s'.linkMap, l.lm ≠ a := by
  induction es with
  | nil => intro s w _ h; exact ⟨s, rfl, h⟩
  | cons e es ih =>
    intro s w hn h
    cases e with
    | step => exact hn.elim
    | load ld =>
      refine ih hn.2 ?_
      intro l hl
      rcases List.mem_append.1 hl with hl | hl
      · exact h l hl
      · exact hn.1 l hl
    | unload dead =>
      exact ih hn (fun l hl => h l (List.mem_filter.1 hl).1)

theorem runWalk_append (env : Env) (t : Option (HTable Name BId)) (a b : List WalkEv) :
    ∀ (s : State) (w : Walk), runWalk env t (a ++ b) s w =
      (runWalk env t a s w) >>= fun r => runWalk env t b r.1 r.2 := by
  induction a with
  | nil => intro s w; rfl
  | cons e a ih =>
    intro s w
    cases e with
    | step =>
      simp only [List.cons_append, runWalk, bind, Except.bind]
      cases walkStep env t w s with
      | error e => rfl
      | ok r => exact ih r.1 r.2
    | load ld => exact ih _ _
    | unload dead => exact ih _ _

/-- C125.  If another thread unloads the object the walk stands on, then whatever else is loaded and
unloaded (as long as no new object gets its address), the next step of the walk uses the freed
structure. -/
theorem C125_use_after_free (env : Env) (t : Option (HTable Name BId)) (s : State) (w : Walk) {a : Addr}
    (hw : standsOn a w.pos) {dead : Addr → Bool} (hd : dead a = true) {es : List WalkEv}
    (he : NotReused a es) :
    runWalk env t (.unload dead :: es ++ [.step]) s w = .error .outOfBounds := by
  rw [List.cons_append, runWalk, runWalk_append]
  obtain ⟨s', h1, h2⟩ := notReused_run (env := env) (t := t) (w := w) (s := s.unload dead) es he (by
    intro l hl e
    have := (List.mem_filter.1 hl).2
    rw [e, hd] at this
    cases this)
  rw [h1]
  have h3 := nodeAt_none h2
  simp only [bind, Except.bind, runWalk, walkStep]
  unfold standsOn at hw
  split at hw
  · rename_i b hp
    subst hw
    simp only [hp, h3]
  · rename_i b hp
    subst hw
    simp only [hp, h3]
  · exact hw.elim

/-- C125.  If moreover the address is given to a new object, the walk goes on from there: it is at the end
of the link map and returns, and the libraries it has not been to stay as they are. -/
theorem C125_reuse_skips (env : Env) (t : Option (HTable Name BId)) (s : State) {X Y : List Lib}
    {b d : Lib} {seen : List Lib} (hs : s.linkMap = X ++ b :: Y) (hn : (s.linkMap.map Lib.lm).Nodup)
    (hd : d.lm = b.lm) (mem : Addr → Option Addr) (wr : Addr → Option Bool) :
    ∃ s', runWalk env t [.unload (fun a => a = b.lm), .load ⟨[d], mem, wr⟩, .step] s ⟨.next b.lm, seen⟩ =
      .ok (s', ⟨.fin, seen⟩) ∧ s'.linkMap = X ++ Y ++ [d] ∧
      s'.libs = s.libs ∧ ∀ a, mem a = none → s'.mem a = s.mem a := by
  have hne : ∀ l ∈ X ++ Y, l.lm ≠ b.lm := by
    rw [hs] at hn
    simp only [List.map_append, List.map_cons] at hn
    rw [List.nodup_append] at hn
    obtain ⟨-, h2, h3⟩ := hn
    rw [List.nodup_cons] at h2
    intro l hl e
    rcases List.mem_append.1 hl with hl | hl
    · exact h3 _ (List.mem_map_of_mem hl) _ (List.mem_cons_self ..) e
    · exact h2.1 (by rw [← e]; exact List.mem_map_of_mem hl)
  have hf : s.linkMap.filter (fun l => !decide (l.lm = b.lm)) = X ++ Y := by
    rw [hs, List.filter_append, List.filter_cons_of_neg (by simp)]
    rw [← List.filter_append, List.filter_eq_self]
    intro l hl
    simpa using hne l hl
  have hlm : ((s.unload (fun a => a = b.lm)).load ⟨[d], mem, wr⟩).linkMap = X ++ Y ++ [d] := by
    show s.linkMap.filter (fun l => !decide (l.lm = b.lm)) ++ [d] = _
    rw [hf]
  have hna : nodeAt (X ++ Y ++ [d]) b.lm = some (d, none) := by
    rw [← hd]
    refine nodeAt_split (Y := []) ?_
    rw [List.map_append, List.nodup_append]
    refine ⟨?_, by simp, ?_⟩
    · rw [hs] at hn
      refine hn.sublist ?_
      exact List.Sublist.map _ (List.Sublist.append (List.Sublist.refl _) (List.sublist_cons_self ..))
    · intro x hx y hy
      obtain ⟨l, hl, rfl⟩ := List.mem_map.1 hx
      rw [List.map_singleton, List.mem_singleton] at hy
      subst hy
      rw [hd]
      exact hne l hl
  refine ⟨(s.unload (fun a => a = b.lm)).load ⟨[d], mem, wr⟩, ?_, hlm, rfl, ?_⟩
  · simp only [runWalk, walkStep, hlm, hna, bind, Except.bind]
    rfl
  · intro a ha
    show (mem a).getD _ = _
    rw [ha]; rfl

/-! ### when the object under the walk stays -/

/-- C125.  As long as no other thread unloads the object the walk stands on, no freed structure is used:
the walk only fails if `update_library_got` itself fails on an object that is loaded. -/
theorem C125_no_stale_pointer (env : Env) (t : Option (HTable Name BId)) (s : State) {es : List WalkEv}
    (hu : Unique s.linkMap es) (hsp : Spares env t es s (Walk.start s)) {s' : State} {w' : Walk}
    (hrun : runWalk env t es s (Walk.start s) = .ok (s', w')) {e : Fault}
    (hstep : walkStep env t w' s' = .error e) :
    ∃ X l Y, s'.linkMap = X ++ l :: Y ∧
      s'.updateLib env (t.getD s'.funTab) l (!Y.isEmpty) = .error e := by
  obtain ⟨hi, hn⟩ := runWalk_inv es (walkInv_start s) hu hsp hrun
  rcases walkStep_cases (env := env) (t := t) hi hn with ⟨X, l, Y, h1, -, h3, -⟩ | ⟨-, h2⟩ | ⟨w1, h1, -⟩
  · refine ⟨X, l, Y, h1, ?_⟩
    rw [h3] at hstep
    cases hx : s'.updateLib env (t.getD s'.funTab) l (!Y.isEmpty) with
    | error e' => rw [hx] at hstep; cases hstep; rfl
    | ok s1 => rw [hx] at hstep; cases hstep
  · rw [h2] at hstep; cases hstep
  · rw [h1] at hstep; cases hstep

/-- C125.  And when it reaches its end, it has been to every library that is loaded at that moment, also
to those loaded while it was under way. -/
theorem C125_all_visited (env : Env) (t : Option (HTable Name BId)) (s : State) {es : List WalkEv}
    (hu : Unique s.linkMap es) (hsp : Spares env t es s (Walk.start s)) {s' s'' : State} {w' w'' : Walk}
    (hrun : runWalk env t es s (Walk.start s) = .ok (s', w')) (hnot : w'.pos ≠ .fin)
    (hstep : walkStep env t w' s' = .ok (s'', w'')) (hend : w''.pos = .fin) :
    ∀ l ∈ s''.linkMap, l ∈ w''.seen := by
  obtain ⟨hi, hn⟩ := runWalk_inv es (walkInv_start s) hu hsp hrun
  rw [walkStep_linkMap hstep]
  rcases walkStep_cases (env := env) (t := t) hi hn with ⟨X, l, Y, h1, -, h3, -⟩ | ⟨h1, -⟩ |
    ⟨w1, h1, -, h4, -, h6⟩
  · exfalso
    rw [h3] at hstep
    cases hx : s'.updateLib env (t.getD s'.funTab) l (!Y.isEmpty) with
    | error e' => rw [hx] at hstep; cases hstep
    | ok s1 => rw [hx] at hstep; cases hstep; cases hend
  · exact absurd h1 hnot
  · rw [h1] at hstep
    cases hstep
    rw [h4]
    exact h6 hend

/-! ### in a process -/

theorem unique_of {C : Ctx} (es : List WalkEv) : ∀ {seen} {A : Abs}, (A.libs.map Lib.lm).Nodup →
    Valid C seen A (es.filterMap loaderOp) → Unique A.libs es := by
  induction es with
  | nil => intro seen A h _; exact h
  | cons e es ih =>
    intro seen A hn hv
    cases e with
    | step => exact ih hn hv
    | load ld => exact ⟨hn, ih (A := (A.step C.env (.load ld)).1) hv.1.1.nd hv.2⟩
    | unload dead =>
      refine ⟨hn, ih (A := (A.step C.env (.unload dead)).1) ?_ hv.2⟩
      exact (List.Sublist.map _ List.filter_sublist).nodup hn

theorem valid_walk {p : Process} {v} (es : List WalkEv) : ∀ {seen} {A : Abs},
    Valid (p.ctx False False) seen A (es.filterMap loaderOp) →
    Valid ((p.ctx True False).at v) seen A (es.filterMap loaderOp) := by
  induction es with
  | nil => intro seen A _; trivial
  | cons e es ih =>
    intro seen A h
    cases e with
    | step => exact ih h
    | load ld =>
      have h1 := h.1.1
      exact ⟨⟨⟨h1.objs, h1.nd, h1.again, h1.placed, h1.old, h1.cover, h1.cons, h1.keep⟩, h.1.2⟩, ih h.2⟩
    | unload dead => exact ⟨h.1, ih h.2⟩

theorem unload_inv {C : Ctx} (hs : ¬ C.sl) {s G A} (hI : Inv C s G A) (hv : s.vdso = some C.v)
    (dead : Addr → Bool) :
    Inv C (s.unload dead) G { A with libs := A.libs.filter (fun l => !dead l.lm) } := by
  have hsub : ∀ {l}, l ∈ (s.unload dead).linkMap → l ∈ s.linkMap :=
    fun hl => (List.mem_filter.1 hl).1
  exact
    { tools := hI.tools
      bind := hI.bind
      fn := hI.fn
      nf := hI.nf
      nfm := hI.nfm
      lib := hI.lib
      wr := ⟨fun l hl => hI.wr.cover l (hsub hl), fun l hl => hI.wr.flag l (hsub hl)⟩
      objs := fun l hl => hI.objs l (hsub hl)
      nd := (List.Sublist.map _ List.filter_sublist).nodup hI.nd
      placed := fun l hl o ho => hI.placed l (hsub hl) o (hsub ho)
      vd := Or.inl hv
      hon := hI.hon
      nfr := hI.nfr
      fresh := hI.fresh
      onch := hI.onch
      slots := fun hx => absurd hx hs
      prio := hI.prio
      stack := hI.stack
      real := hI.real
      libs := by show A.libs.filter _ = s.linkMap.filter _; rw [hI.libs]
      vdso := hI.vdso
      mainW := hI.mainW
      init := hI.init
      init' := hI.init' }

theorem accepts_of_passes {f : Filter} {l : Lib} (h : Passes f l) (b : Bool) : f.accepts l b = .ok true :=
  passes_admits (good := fun x => x = l) (fun _ e => e ▸ h) l rfl b

/-- The libraries visited are marked. -/
def Done (s : State) (G : Gh) (wk : Walk) : Prop :=
  ∀ l ∈ wk.seen, Passes s.filter l → HasRel l → genAt s.libs G.lm l = s.gen

theorem walk_safe {C : Ctx} (w : World C.env C.U) (hs : ¬ C.sl) (es : List WalkEv) :
    ∀ {s G A wk}, Inv C s G A → s.vdso = some C.v → WalkInv s.linkMap wk → Done s G wk →
    Valid C G.seen A (es.filterMap loaderOp) → Spares C.env none es s wk →
    ∃ s' wk' G' A', runWalk C.env none es s wk = .ok (s', wk') ∧ Inv C s' G' A' ∧ Done s' G' wk' ∧
      s'.gen = s.gen := by
  induction es with
  | nil => intro s G A wk h _ _ hd _ _; exact ⟨s, wk, G, A, rfl, h, hd, rfl⟩
  | cons e es ih =>
    intro s G A wk h hv hw hd hva hsp
    cases e with
    | step =>
      rcases walkStep_cases (env := C.env) (t := none) hw h.nd with ⟨X, l, Y, h1, h2, h3, h4⟩ | ⟨h1, h2⟩ |
        ⟨w1, h1, h2, h3, h4, h5⟩
      · obtain ⟨s1, G1, e1, e2, e3, e4, e5, e6, e7, e8, -⟩ := lib_inv w hs (l := l) (ls := Y) h h.fn
          (fun f b hb => List.mem_of_head? hb) ⟨X, h1.symm⟩
        have hst : walkStep C.env none wk s = .ok (s1, ⟨.next l.lm, l :: wk.seen⟩) := by
          rw [h3]
          show (s.updateLib C.env s.funTab l (!Y.isEmpty)).map _ = _
          rw [e1]; rfl
        have hd1 : Done s1 G1 ⟨.next l.lm, l :: wk.seen⟩ := by
          intro x hx hp hr
          rw [e3.filter] at hp
          rw [e6]
          rcases List.mem_cons.1 hx with rfl | hx
          · exact e8 (accepts_of_passes hp _) hr
          · exact e7 x (hd x hx hp hr)
        obtain ⟨s', wk', G', A', f1, f2, f3, f4⟩ := ih e2 (by rw [e3.vds (by rw [hv]; simp)]; exact hv)
          (by rw [e3.linkMap]; exact h4) hd1 (by rw [e3.seen]; exact hva) (hsp _ _ hst)
        refine ⟨s', wk', G', A', ?_, f2, f3, f4.trans e6⟩
        simp only [runWalk, hst, bind, Except.bind, f1]
      · obtain ⟨s', wk', G', A', f1, f2, f3, f4⟩ := ih h hv hw hd hva (hsp _ _ h2)
        refine ⟨s', wk', G', A', ?_, f2, f3, f4⟩
        simp only [runWalk, h2, bind, Except.bind, f1]
      · obtain ⟨s', wk', G', A', f1, f2, f3, f4⟩ := ih h hv h4
          (fun x hx => hd x (by rw [← h3]; exact hx)) hva (hsp _ _ h1)
        refine ⟨s', wk', G', A', ?_, f2, f3, f4⟩
        simp only [runWalk, h1, bind, Except.bind, f1]
    | load ld =>
      have hld : LoadOk C G.seen s.linkMap ld := by rw [← h.libs]; exact hva.1.1
      exact ih (load_inv h hld hv) hv (walkInv_load hw _) hd hva.2 hsp
    | unload dead =>
      exact ih (unload_inv hs h hv dead) hv (walkInv_unload hw hsp.1) hd hva.2 hsp.2

/-- C125.  In a process in which GOTCHA is in use, a walk with the table of all functions (as after a
dlopen) with any loading and unloading in between, sparing the object under the walk: nothing crashes,
every library loaded when the walk ends has been visited, and GOTCHA's record of it carries the current
generation if the filter admits it and it has relocations. -/
theorem C125_walk_safe {p : Process} (ok : p.Ok) {ops : List Op} (h : History p False ops)
    (hapi : ops.any isApi = true) {s os} (hrun : run p.env ops p.start = .ok (s, os))
    {es : List WalkEv} (hl : Events p False (ops ++ es.filterMap loaderOp))
    (hsp : Spares p.env none es s (Walk.start s)) (hg : s.gen ≠ 0) :
    ∃ s' w', runWalk p.env none es s (Walk.start s) = .ok (s', w') ∧
      (∃ r, walkStep p.env none w' s' = .ok r) ∧
      (∀ l ∈ w'.seen, l ∈ s'.linkMap → Passes s'.filter l → HasRel l → Current s' l) ∧
      ∀ s'' w'', walkStep p.env none w' s' = .ok (s'', w'') → w'.pos ≠ .fin → w''.pos = .fin →
        s'' = s' ∧ w''.seen = w'.seen ∧ ∀ l ∈ s'.linkMap, l ∈ w'.seen := by
  obtain ⟨v, G, hP⟩ := history_post ok h hapi hrun
  have hva : Valid (p.ctx False False) p.seen p.abs (ops ++ es.filterMap loaderOp) :=
    start_valid hl (fun hf => hf.elim)
  have hva2 := valid_tail ops _ hva
  have hva3 : Valid ((p.ctx True False).at v) G.seen (Abs.run p.env ops p.abs).1
      (es.filterMap loaderOp) := by
    rw [hP.seen]; exact valid_walk es hva2
  obtain ⟨s', w', G', A', e1, e2, e3, e4⟩ := walk_safe (C := (p.ctx True False).at v) ok.world id es hP.inv
    hP.vd (walkInv_start s) (fun l hl => by cases hl) hva3 hsp
  have hu : Unique s.linkMap es := by
    have := unique_of (C := (p.ctx True False).at v) es (by rw [hP.inv.libs]; exact hP.inv.nd) hva3
    rwa [hP.inv.libs] at this
  refine ⟨s', w', e1, ?_, ?_, ?_⟩
  · cases hx : walkStep p.env none w' s' with
    | ok r => exact ⟨r, rfl⟩
    | error e =>
      exfalso
      obtain ⟨X, l, Y, g1, g2⟩ := C125_no_stale_pointer p.env none s hu hsp e1 hx
      obtain ⟨s1, G1, k1, -⟩ := lib_inv (C := (p.ctx True False).at v) ok.world id (l := l) (ls := Y) e2
        e2.fn (fun f b hb => List.mem_of_head? hb) ⟨X, g1.symm⟩
      have g3 : s'.updateLib p.env s'.funTab l (!Y.isEmpty) = .error e := g2
      rw [show s'.updateLib p.env s'.funTab l (!Y.isEmpty) = .ok s1 from k1] at g3
      cases g3
  · intro l hl hl2 hp hr
    have hge := e3 l hl hp hr
    have hlook := lookup_lib ok.world e2.lib.tab (e2.objs l hl2).1
    unfold genAt recAt at hge
    cases hm : G'.lm l with
    | none =>
      exfalso
      rw [hm] at hge
      exact hg (by rw [← e4]; exact hge.symm)
    | some r =>
      have hb := e2.lib.bound hm
      rw [hm] at hlook hge
      refine ⟨r, s'.libs[r], hlook, List.getElem?_eq_getElem hb, ?_⟩
      simpa [List.getElem?_eq_getElem hb] using hge
  · intro s'' w'' g1 g2 g3
    have g4 := C125_all_visited p.env none s hu hsp e1 g2 g1 g3
    obtain ⟨hi, hn⟩ := runWalk_inv es (walkInv_start s) hu hsp e1
    rcases walkStep_cases (env := p.env) (t := none) hi hn with ⟨X, l, Y, k1, k2, k3, k4⟩ | ⟨k1, k2⟩ |
      ⟨w1, k1, k2, k3, k4, k5⟩
    · exfalso
      rw [k3] at g1
      cases hx : s'.updateLib p.env (Option.getD none s'.funTab) l (!Y.isEmpty) with
      | error e' => rw [hx] at g1; cases g1
      | ok s1 => rw [hx] at g1; cases g1; cases g3
    · exact absurd k1 g2
    · rw [k1] at g1
      cases g1
      exact ⟨rfl, k3, k5 g3⟩

end Gotcha
