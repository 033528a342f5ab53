import Verif.Spec.Program
import Verif.Props.Compose
import Verif.Props.Resolve
import Verif.Props.Dlsym
/-
Machine and ideal agree on where calls go.
-/
namespace Gotcha
open Spec

theorem SlotCons.sub {A B : List Lib} (h : SlotCons B) (hs : ∀ l ∈ A, l ∈ B) : SlotCons A :=
  fun l hl l' hl' => h l (hs l hl) l' (hs l' hl')

theorem loaderFor_cons {p : Process} {good : Lib → Prop} (ops : List Op) :
    ∀ {seen libs inited}, LoaderFor p True good seen libs inited ops → SlotCons libs →
      SlotCons (libsAfter libs ops) := by
  induction ops with
  | nil => intro _ _ _ _ h; exact h
  | cons op ops ih =>
    intro seen libs inited h hc
    cases op <;> simp only [LoaderFor] at h <;> simp only [libsAfter, List.foldl_cons, loadStep]
    · exact ih h.2 hc
    · exact ih h.2 hc
    · exact ih h.2 hc
    · exact ih h hc
    · exact ih h.2 (h.1.cons trivial)
    · exact ih h.2.2 (h.1.cons trivial)
    · exact ih h.2 (hc.sub (fun l hl => (List.mem_filter.1 hl).1))

theorem loaderFor_last {p : Process} {good : Lib → Prop} {op : Op} {ld : Load}
    (ho : op = .dlopen ld ∨ op = .load ld) (ops : List Op) :
    ∀ {seen libs inited}, LoaderFor p True good seen libs inited (ops ++ [op]) →
      ∃ seen', LoadsFor p True good seen' (libsAfter libs ops) ld := by
  induction ops with
  | nil =>
    intro seen libs inited h
    rcases ho with rfl | rfl
    · exact ⟨_, h.1⟩
    · exact ⟨_, h.1⟩
  | cons o ops ih =>
    intro seen libs inited h
    cases o <;> simp only [List.cons_append, LoaderFor] at h <;>
      simp only [libsAfter, List.foldl_cons, loadStep]
    · exact ih h.2
    · exact ih h.2
    · exact ih h.2
    · exact ih h
    · exact ih h.2
    · exact ih h.2.2
    · exact ih h.2

theorem stays {libs : List Lib} {l : Lib} (hl : l ∈ libs) : ∀ (ops : List Op),
    (∀ dead, Op.unload dead ∈ ops → dead l.lm = false) → l ∈ libsAfter libs ops := by
  intro ops
  induction ops generalizing libs with
  | nil => intro _; exact hl
  | cons op ops ih =>
    intro h
    refine ih (libs := loadStep libs op) ?_ (fun d hd => h d (by simp [hd]))
    cases op <;> simp only [loadStep, List.mem_append, hl, true_or]
    rename_i dead
    exact List.mem_filter.2 ⟨hl, by simp [h dead (by simp)]⟩

/-- An event changes a slot of a function nobody wraps only as the loader does. -/
theorem plain_step {p : Process} (ok : p.Ok) {good : Lib → Prop} {f : Name} (hf : f ∉ ownNames) {l : Lib}
    {off : Addr} (hoff : (off, f) ∈ rlOf l) {ops : List Op} {op : Op} (h : HistoryFor p True good (ops ++ [op]))
    (hl : l ∈ libsAfter p.libs (ops ++ [op])) (hcl : clientFrames (ops ++ [op]) f = []) {s0 os0 s os}
    (hr0 : run p.env ops p.start = .ok (s0, os0)) (hr : run p.env (ops ++ [op]) p.start = .ok (s, os)) :
    s.mem (l.addr + off) = loaderWord op (l.addr + off) (s0.mem (l.addr + off)) := by
  rcases C10_only_slots_of_wrapped_functions ok (EventsFor.weak h.toEventsFor) hr0 hr (l.addr + off) with
    e | ⟨l', off', f', u, hadm, hoff', ea, hu, hun, -⟩
  · exact e
  · exfalso
    have hc := loaderFor_cons (ops ++ [op]) h.loader (h.cons trivial)
    obtain ⟨X, Y, eX, -⟩ := hadm
    have := hc l hl l' (by rw [eX]; simp) (off, f) hoff (off', f') hoff' ea
    simp only at this
    subst this
    rcases hu with hu | hu
    · apply hf
      simp only [ownTable, dlTable, libcMainTable, mainTable, List.cons_append, List.nil_append,
        List.mem_cons, List.not_mem_nil, or_false] at hu
      rcases hu with rfl | rfl | rfl | rfl <;> simp only at hun <;> rw [← hun] <;> simp [ownNames]
    · obtain ⟨o', ho', hu'⟩ := List.mem_flatMap.1 hu
      cases o' with
      | wrap tbl tool =>
        have : frame (toolName tool) u ∈ clientFrames (ops ++ [op]) f := by
          refine List.mem_flatMap.2 ⟨_, ho', ?_⟩
          exact List.mem_map.2 ⟨u, List.mem_filter.2 ⟨hu', by simpa using hun⟩, rfl⟩
        rw [hcl] at this
        cases this
      | _ => cases hu'

theorem libsAfter_append (libs : List Lib) (a b : List Op) :
    libsAfter libs (a ++ b) = libsAfter (libsAfter libs a) b := by
  simp [libsAfter, List.foldl_append]

/-- The slots of a function nobody wraps stay as they are, as long as the object is there. -/
theorem plain_slot {p : Process} (ok : p.Ok) {good : Lib → Prop} {f : Name} (hf : f ∉ ownNames) {l : Lib}
    (hg : good l) {off : Addr} (hoff : (off, f) ∈ rlOf l) {pre : List Op} (hl : l ∈ libsAfter p.libs pre)
    {s0 os0} (hr0 : run p.env pre p.start = .ok (s0, os0)) (post : List Op) :
    HistoryFor p True good (pre ++ post) → (∀ dead, Op.unload dead ∈ post → dead l.lm = false) →
    clientFrames (pre ++ post) f = [] → ∀ {s os}, run p.env (pre ++ post) p.start = .ok (s, os) →
    s.mem (l.addr + off) = s0.mem (l.addr + off) := by
  induction post using List.reverseRecOn with
  | nil =>
    intro _ _ _ s os hr
    rw [List.append_nil, hr0] at hr
    cases hr
    rfl
  | append_singleton post op ih =>
    intro h hst hcl s os hr
    have hls := stays hl _ hst
    have hlp := stays hl post (fun d hd => hst d (by simp [hd]))
    rw [← libsAfter_append] at hls hlp
    rw [← List.append_assoc] at h hcl hr hls
    obtain ⟨s1, os1, o, hr1, -⟩ := run_last hr
    have hc0 : clientFrames (pre ++ post) f = [] := by
      have : clientFrames (pre ++ post ++ [op]) f = clientFrames (pre ++ post) f ++ clientFrames [op] f := by
        simp [clientFrames]
      rw [this, List.append_eq_nil_iff] at hcl
      exact hcl.1
    have e0 := ih h.prefix (fun d hd => hst d (by simp [hd])) hc0 hr1
    rw [plain_step ok hf hoff h hls hcl hr1 hr, ← e0]
    cases op <;> simp only [loaderWord]
    · rename_i ld
      obtain ⟨_, hld⟩ := loaderFor_last (Or.inl rfl) _ h.loader
      have := hld.keep trivial l hlp hg (off, f) hoff
      rw [this]
      rfl
    · rename_i ld
      obtain ⟨_, hld⟩ := loaderFor_last (Or.inr rfl) _ h.loader
      have := hld.keep trivial l hlp hg (off, f) hoff
      rw [this]
      rfl

/-- The slots of a function nobody wraps hold what the loader bound them to. -/
theorem bound_slot {p : Process} (ok : p.Ok) {good : Lib → Prop} {ops : List Op} {l : Lib} {off : Addr}
    {f : Name} {a : Addr} (hb : BoundTo p ops l off f a) (hg : good l) (hoff : (off, f) ∈ rlOf l)
    (h : HistoryFor p True good ops) (hcl : clientFrames ops f = []) {s os}
    (hr : run p.env ops p.start = .ok (s, os)) : s.mem (l.addr + off) = a := by
  cases hb with
  | start hl hst hf => exact plain_slot ok hf hg hoff (pre := []) hl rfl ops h hst hcl hr
  | @loaded pre op ld post _ _ _ _ ho hl hm hst hf =>
    have eo : pre ++ op :: post = (pre ++ [op]) ++ post := by simp
    rw [eo] at h hcl hr
    obtain ⟨s1, hr1, -⟩ := historyFor_run ok h.prefix
    obtain ⟨s0, os0, o, hr0, -⟩ := run_last hr1
    have hl1 : l ∈ libsAfter p.libs (pre ++ [op]) := by
      rw [libsAfter_append]
      rcases ho with rfl | rfl <;> simp [libsAfter, loadStep, hl]
    have hc1 : clientFrames (pre ++ [op]) f = [] := by
      have : clientFrames (pre ++ [op] ++ post) f = clientFrames (pre ++ [op]) f ++ clientFrames post f := by
        simp [clientFrames]
      rw [this, List.append_eq_nil_iff] at hcl
      exact hcl.1
    rw [plain_slot ok hf hg hoff hl1 hr1 post h hst hcl hr,
      plain_step ok hf hoff h.prefix hl1 hc1 hr0 hr1]
    rcases ho with rfl | rfl <;> simp [loaderWord, hm]

theorem bound_own {p : Process} {ops l off f a} (h : BoundTo p ops l off f a) : f ∉ ownNames := by
  cases h <;> assumption

/-- dlsym finds what it should. -/
theorem found_sym {p : Process} (ok : p.Ok) {good : Lib → Prop} {ops : List Op}
    (h : HistoryFor p True good ops) {s os} (hr : run p.env ops p.start = .ok (s, os)) {real : RealDl}
    {hnd : DlHandle} {f : Name} {who a : Addr} (hf : Found p ops (stackOf p ops) real hnd f who a) :
    if s.inited then dlsymWrapper p.env real hnd f who s = .ok (s, a) else a = real.dlsym hnd f := by
  have h' : History p False ops := ⟨EventsFor.weak h.toEventsFor, h.honest⟩
  have hini := (history_view ok h' hr).2.2
  have hreg : ∀ {fr st}, stackOf p ops f = fr :: st → s.inited = true := by
    intro fr st hst
    rw [hini]
    refine inited_of_registered (p := p) (f := f) ?_
    intro hc
    have := stackOf_perm p ops f
    rw [hc, hst] at this
    exact absurd this.length_eq (by simp)
  have hnone : stackOf p ops f = [] → registered p.env ops f = [] := by
    intro hst
    have := stackOf_perm p ops f
    rw [hst] at this
    exact List.nil_perm.1 this
  cases hf with
  | early he => rw [hini, he]; simp
  | missing hd hst h0 =>
    rw [if_pos (hreg hst)]
    exact (dlsym_wrapped ok h' hr hd hst real hnd who).1 h0
  | sole hd hst hre =>
    rw [if_pos (hreg hst)]
    have hl := history_linked ok h' hr f
    rw [hst, hre] at hl
    exact (dlsym_wrapped ok h' hr hd hst real hnd who).2.1 _ (hl.last _ rfl) rfl
  | second hd hst hre =>
    rw [if_pos (hreg hst)]
    have hl := history_linked ok h' hr f
    rw [hst] at hl
    exact (dlsym_wrapped ok h' hr hd hst real hnd who).2.1 _ (hl.next 0 _ _ rfl rfl) hre
  | notSole hd hst hre h0 hne =>
    rw [if_pos (hreg hst)]
    have hl := history_linked ok h' hr f
    rw [hst, hre] at hl
    exact (dlsym_wrapped ok h' hr hd hst real .next who).2.2.1 _ _ (hl.last _ rfl) h0 hne
  | notSecond hd hst h0 hne =>
    rw [if_pos (hreg hst)]
    have hl := history_linked ok h' hr f
    rw [hst] at hl
    exact (dlsym_wrapped ok h' hr hd hst real .next who).2.2.1 _ _ (hl.next 0 _ _ rfl rfl) h0 hne
  | plain hd hi hst =>
    rw [← hini] at hi
    rw [if_pos hi]
    exact C18_dlsym_transparent ok h' hr hi hd (hnone hst) real _ who
  | @next _ _ X c Y l Z hd hi hst hlibs hc hX hv he hY =>
    rw [← hini] at hi
    rw [if_pos hi, C19_rtld_next ok h' hr hi hd (hnone hst) real who hlibs hc hX]
    have : (Y ++ l :: Z).find? (fun l => decide (vdsoAfter p.env p.libs ops ≠ some l.lm) &&
        (exportsAt l f).isSome) = some l := by
      rw [List.find?_append, List.find?_eq_none.2, List.find?_cons]
      · have e1 : (exportsAt l f).isSome = true := Option.isSome_iff_ne_none.2 he
        simp [hv, e1]
      · intro o ho
        rcases hY o ho with e | e <;> simp [e]
    rw [this]
  | @nowhere _ _ X c Y hd hi hst hlibs hc hX hY =>
    rw [← hini] at hi
    rw [if_pos hi, C19_rtld_next ok h' hr hi hd (hnone hst) real who hlibs hc hX]
    have : Y.find? (fun l => decide (vdsoAfter p.env p.libs ops ≠ some l.lm) && (exportsAt l f).isSome) = none := by
      rw [List.find?_eq_none]
      intro o ho
      rcases hY o ho with e | e <;> simp [e]
    rw [this]

theorem machine_goto_det {env : Env} {s : State} {c : Callee} {a a' : Addr} (h : (machine env).goto s c a)
    (h' : (machine env).goto s c a') : a = a' := by
  cases c <;> simp only [machine] at h h'
  · rw [h, h']
  · rw [h] at h'; exact Except.ok.inj h'
  · split at h
    · rw [if_pos ‹_›, h] at h'; exact congrArg Prod.snd (Except.ok.inj h')
    · rw [if_neg ‹_›] at h'; rw [h, h']
  · rw [h, h']

theorem machine_det {env : Env} {V : Type} {code : Addr → V → Prog V} {s : State} {k : Prog V} {t v s1}
    (he : Eval (machine env) code s k t v s1) : ∀ {t' v' s'}, Eval (machine env) code s k t' v' s' →
      t' = t ∧ v' = v ∧ s' = s1 := by
  induction he with
  | ret => intro t' v' s' h'; cases h'; exact ⟨rfl, rfl, rfl⟩
  | out _ ih =>
    intro t' v' s' h'
    cases h' with
    | out h1 => obtain ⟨rfl, rfl, rfl⟩ := ih h1; exact ⟨rfl, rfl, rfl⟩
  | null h1 _ ih =>
    intro t' v' s' h'
    cases h' with
    | null _ h2 => exact ih h2
    | other h2 h3 _ => exact absurd (machine_goto_det h2 h1) h3
  | other h1 h2 _ ih =>
    intro t' v' s' h'
    cases h' with
    | null h3 _ => exact absurd (machine_goto_det h1 h3) h2
    | other _ _ h3 => exact ih h3
  | call h1 _ _ ih1 ih2 =>
    intro t' v' s' h'
    cases h' with
    | call h3 h4 h5 =>
      obtain rfl := machine_goto_det h1 h3
      obtain ⟨rfl, rfl, rfl⟩ := ih1 h4
      obtain ⟨rfl, rfl, rfl⟩ := ih2 h5
      exact ⟨rfl, rfl, rfl⟩
  | look h1 _ ih =>
    intro t' v' s' h'
    cases h' with
    | look h3 h4 =>
      obtain rfl := machine_goto_det h1 h3
      exact ih h4
  | event h1 _ ih =>
    intro t' v' s' h'
    cases h' with
    | event h2 h3 =>
      simp only [machine] at h1 h2
      rw [h1] at h2
      cases h2
      exact ih h3

theorem slot_wrapped {p : Process} (ok : p.Ok) {good : Lib → Prop} {ops : List Op}
    (h : HistoryFor p True good ops) {s os} (hr : run p.env ops p.start = .ok (s, os)) {l : Lib}
    (hl : l ∈ libsAfter p.libs ops) (hg : good l) {off : Addr} {f : Name} (hoff : (off, f) ∈ rlOf l)
    {fr : Frame} {st : List Frame} (hst : stackOf p ops f = fr :: st) :
    fr.wrapper = s.mem (l.addr + off) := by
  obtain ⟨hv, e⟩ := historyFor_view ok h hr
  exact (hv.slots trivial _ (by rw [e]; exact hl) hg _ hoff _ _ hst).symm

theorem slot_plain {p : Process} (ok : p.Ok) {good : Lib → Prop} {ops : List Op}
    (h : HistoryFor p True good ops) {s os} (hr : run p.env ops p.start = .ok (s, os)) {l : Lib}
    (hg : good l) {off : Addr} {f : Name} (hoff : (off, f) ∈ rlOf l)
    (hst : stackOf p ops f = []) {a : Addr} (hb : BoundTo p ops l off f a) : a = s.mem (l.addr + off) := by
  have hc : clientFrames ops f = [] := by
    have := stackOf_perm p ops f
    rw [hst, registered_client _ _ (bound_own hb)] at this
    exact List.nil_perm.1 this
  exact (bound_slot ok hb hg hoff h hc hr).symm

/-- Words left alone stay as they are. -/
theorem left_alone {p : Process} (ok : p.Ok) {pre : List Op} {s0 os0}
    (hr0 : run p.env pre p.start = .ok (s0, os0)) {a : Addr} (post : List Op) :
    Events p False (pre ++ post) → LeftAlone p pre post a → ∀ {s os},
      run p.env (pre ++ post) p.start = .ok (s, os) → s.mem a = s0.mem a := by
  induction post using List.reverseRecOn with
  | nil =>
    intro _ _ s os hr
    rw [List.append_nil, hr0] at hr
    cases hr
    rfl
  | append_singleton post op ih =>
    intro h hl s os hr
    rw [← List.append_assoc] at h hr
    obtain ⟨s1, os1, o, hr1, -⟩ := run_last hr
    have e0 := ih h.prefix (fun m1 o' m2 e => hl m1 o' (m2 ++ [op]) (by rw [e]; simp)) hr1
    obtain ⟨h1, h2⟩ := hl post op [] rfl
    rcases C10_only_slots_of_wrapped_functions ok h hr1 hr a with e | ⟨l, off, f, u, hadm, hoff, ea, -⟩
    · rw [e, ← e0]
      cases op <;> simp only [loaderWord]
      · rw [h2 _ (Or.inl rfl)]; rfl
      · rw [h2 _ (Or.inr rfl)]; rfl
    · exact absurd ea (h1 l hadm _ hoff)

/-- Wherever the ideal tells where a call goes, it goes there. -/
theorem ideal_machine {p : Process} (ok : p.Ok) {good : Lib → Prop} {ops : List Op}
    (h : HistoryFor p True good ops) {s os} (hr : run p.env ops p.start = .ok (s, os))
    (c : Callee) (a : Addr) (hi : Ideal (fun l => l ∈ libsAfter p.libs ops ∧ good l) (stackOf p ops)
      (realAfter p.env p.libs ops) (BoundTo p ops) (Found p ops (stackOf p ops)) (libsAfter p.libs ops)
      (Kept p (stackOf p) ops) c a) :
    (machine p.env).goto s c a := by
  obtain ⟨hv, hl⟩ := historyFor_view ok h hr
  cases hi with
  | wrapped h1 h2 h3 => exact slot_wrapped ok h hr h1.1 h1.2 h2 h3
  | plain h1 h2 h3 h4 => exact slot_plain ok h hr h1.2 h2 h3 h4
  | kept h1 =>
    cases h1 with
    | wrapped e hp h1 h2 h3 h4 h5 =>
      subst e
      obtain ⟨s0, hr0, -⟩ := historyFor_run ok hp
      exact (slot_wrapped ok hp hr0 h1 h2 h3 h4).trans
        (left_alone ok hr0 _ (EventsFor.weak h.toEventsFor) h5 hr).symm
    | plain e hp h1 h2 h3 h4 h5 h6 =>
      subst e
      obtain ⟨s0, hr0, -⟩ := historyFor_run ok hp
      exact (slot_plain ok hp hr0 h2 h3 h4 h5).trans
        (left_alone ok hr0 _ (EventsFor.weak h.toEventsFor) h6 hr).symm
  | @next f pre fr fr' post h1 =>
    have := hv.wrappee f pre.length fr (by
      show (stackOf p ops f)[pre.length]? = some fr
      rw [h1]; simp)
    rw [show (Abs.run p.env ops p.abs).1.stack f = stackOf p ops f from rfl, h1] at this
    simpa [machine, nextOf] using this
  | @last f pre fr r h1 h2 =>
    have := hv.wrappee f pre.length fr (by
      show (stackOf p ops f)[pre.length]? = some fr
      rw [h1]; simp)
    rw [show (Abs.run p.env ops p.abs).1.stack f = stackOf p ops f from rfl, h1, real_run, h2] at this
    simpa [machine, nextOf] using this
  | sym h1 =>
    simp only [machine]
    rw [(history_view ok (⟨EventsFor.weak h.toEventsFor, h.honest⟩ : History p False ops) hr).2.1]
    exact found_sym ok h hr h1
  | fixed => rfl

/-- What the caller of an event is told. -/
theorem answered_eq {p : Process} (ok : p.Ok) {good : Lib → Prop} {ops : List Op} {op : Op}
    (h : HistoryFor p True good (ops ++ [op])) {o : Obs} (ha : Answered p ops op o) :
    ((Abs.run p.env ops p.abs).1.step p.env op).2 = o := by
  have hw : ∀ tbl tool, op = .wrap tbl tool → ∃ c,
      ((Abs.run p.env ops p.abs).1.step p.env op).2 = .ret c ∧ (c = .functionNotFound ∨ c = .success) ∧
        (c = .functionNotFound ↔ Unresolved p ops tbl tool) := by
    rintro tbl tool rfl
    have h' : History p False (ops ++ [.wrap tbl tool]) :=
      ⟨EventsFor.weak h.toEventsFor, h.honest⟩
    obtain ⟨s, hr, -⟩ := history_run ok h'
    obtain ⟨c, h1, h2, h3⟩ := C07_return_code ok h' hr
    refine ⟨c, ?_, h2, h3⟩
    rw [run_append] at h1
    simpa [Abs.run] using h1
  cases ha with
  | found hn =>
    obtain ⟨c, e, h1 | h1, h2⟩ := hw _ _ rfl
    · exact absurd (h2.1 h1) hn
    · rw [e, h1]
  | missing hn =>
    obtain ⟨c, e, -, h2⟩ := hw _ _ rfl
    rw [e, h2.2 hn]
  | set => rfl
  | @get t =>
    have := (run_prio p.env p.libs (ops ++ [.getPriority t])).1 t
    rw [run_snoc] at this
    rw [← this]
    rfl
  | filter => rfl
  | dlopen =>
    simp only [Abs.step]
    split <;> rfl
  | load => rfl
  | unload => rfl

theorem ideal_prefix {p : Process} {good : Lib → Prop} {order : List Op → Name → List Frame} {V : Type}
    {code : Addr → V → Prog V} {ops : List Op} {k : Prog V} {t v ops'}
    (he : Eval (ideal p good order) code ops k t v ops') : ops <+: ops' := by
  induction he with
  | ret => exact List.prefix_refl _
  | out _ ih => exact ih
  | null _ _ ih => exact ih
  | other _ _ _ ih => exact ih
  | call _ _ _ ih1 ih2 => exact ih1.trans ih2
  | look _ _ ih => exact ih
  | event h1 _ ih => exact (h1.2 ▸ List.prefix_append _ _ : _ <+: _).trans ih

theorem ideal_eval {p : Process} (ok : p.Ok) {good : Lib → Prop} {V : Type} {code : Addr → V → Prog V}
    {ops : List Op} {k : Prog V} {t v ops'}
    (he : Eval (ideal p good (stackOf p)) code ops k t v ops') (h : HistoryFor p True good ops') :
    ∀ {s os}, run p.env ops p.start = .ok (s, os) → ∃ s' os', run p.env ops' p.start = .ok (s', os') ∧
      Eval (machine p.env) code s k t v s' := by
  have pre : ∀ {a b : List Op}, a <+: b → HistoryFor p True good b → HistoryFor p True good a := by
    rintro a b ⟨c, rfl⟩ hb
    exact hb.prefix
  induction he with
  | ret => intro s os hr; exact ⟨s, os, hr, .ret⟩
  | out _ ih =>
    intro s os hr
    obtain ⟨s', os', h1, h2⟩ := ih h hr
    exact ⟨s', os', h1, .out h2⟩
  | null h1 he ih =>
    intro s os hr
    obtain ⟨s', os', h2, h3⟩ := ih h hr
    exact ⟨s', os', h2, .null (ideal_machine ok (pre (ideal_prefix he) h) hr _ _ h1) h3⟩
  | other h1 h0 he ih =>
    intro s os hr
    obtain ⟨s', os', h2, h3⟩ := ih h hr
    exact ⟨s', os', h2, .other (ideal_machine ok (pre (ideal_prefix he) h) hr _ _ h1) h0 h3⟩
  | call h1 he1 he2 ih1 ih2 =>
    intro s os hr
    have hm := pre (ideal_prefix he2) h
    obtain ⟨s1, os1, h2, h3⟩ := ih1 hm hr
    obtain ⟨s2, os2, h4, h5⟩ := ih2 h h2
    exact ⟨s2, os2, h4, .call (ideal_machine ok (pre (ideal_prefix he1) hm) hr _ _ h1) h3 h5⟩
  | look h1 he ih =>
    intro s os hr
    obtain ⟨s', os', h2, h3⟩ := ih h hr
    exact ⟨s', os', h2, .look (ideal_machine ok (pre (ideal_prefix he) h) hr _ _ h1) h3⟩
  | @event ops op k o ops1 t v ops2 h1 he ih =>
    intro s os hr
    obtain ⟨ha, rfl⟩ := h1
    have hm := pre (ideal_prefix he) h
    obtain ⟨s1, hr1, -⟩ := historyFor_run ok hm
    obtain ⟨s0, os0, o', e1, e2, e3⟩ := run_last hr1
    rw [hr] at e1
    cases e1
    have ho : o' = o := by
      obtain ⟨s0', hr0, -⟩ := historyFor_run ok hm.prefix
      rw [hr] at hr0
      cases hr0
      rw [run_append, ← answered_eq ok hm ha] at *
      simpa [Abs.run] using e3.symm
    subst ho
    obtain ⟨s2, os2, h4, h5⟩ := ih h hr1
    exact ⟨s2, os2, h4, .event e2 h5⟩

end Gotcha
