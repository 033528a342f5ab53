import Verif.Proof.Effects
import Verif.Demo.Facts
/-
C10, C11, C26, C27: what GOTCHA writes, what it leaves alone, what it skips, and its library records.
C10 and C11 hold for arbitrary clients (handle variables shared, tables wrapped twice, ...), as long
as the run goes on.
-/
namespace Gotcha
open Spec

/-- C10.  After any event a memory word is what the loader made it, or it is a GOT slot of an admitted
library whose relocation names a function `f`, and holds a wrapper that was supplied for `f` (by a
client's table so far or by GOTCHA's own). -/
theorem C10_only_slots_of_wrapped_functions {p : Process} (ok : p.Ok) {strict : Prop} {ops : List Op}
    {op : Op} (h : Events p strict (ops ++ [op])) {s os s' os'}
    (hr : run p.env ops p.start = .ok (s, os))
    (hr' : run p.env (ops ++ [op]) p.start = .ok (s', os')) (a : Addr) :
    s'.mem a = loaderWord op a (s.mem a) ∨
      ∃ l off f u, Admitted (filterAfter (ops ++ [op])) (libsAfter p.libs (ops ++ [op])) l ∧
        (off, f) ∈ rlOf l ∧ a = l.addr + off ∧
        (u ∈ ownTable p.env ∨ u ∈ (ops ++ [op]).flatMap tableOf) ∧ u.name = f ∧
        u.wrapper = s'.mem a :=
  events_mem ok h hr hr' a

/-- The demo: wrapping foo changes nothing but the slots for foo, dlopen and dlsym. -/
example : ∃ s os, run Demo.env [.wrap [⟨nm "foo", 0x50a, 10⟩] (some Demo.B)] Demo.proc.start =
    .ok (s, os) ∧ s.mem 0x10000020 = 0 := by
  have h : History Demo.proc True ([.wrap [⟨nm "foo", 0x50a, 10⟩] (some Demo.B)] ++
    [.wrap [⟨nm "foo", 0x50c, 12⟩] (some Demo.A)]) := Demo.history2 True
  obtain ⟨s, hr, -⟩ := history_run Demo.proc_ok h.prefix
  refine ⟨s, _, hr, ?_⟩
  rcases C10_only_slots_of_wrapped_functions (ops := []) Demo.proc_ok h.prefix.toEvents rfl hr
    0x10000020 with e | ⟨l, off, f, u, ⟨X, Y, e1, -⟩, h2, h3, h4, h5, -⟩
  · exact e
  · exfalso
    have hl : l ∈ [Demo.app, Demo.libc] := by
      have hx : [Demo.app, Demo.libc] = X ++ l :: Y := e1
      rw [hx]; simp
    have hf : f = nm "foo" ∨ f = nm "dlopen" ∨ f = nm "dlsym" ∨ f = nm "__libc_start_main" ∨
        f = nm "main" := by
      simp only [ownTable, dlTable, libcMainTable, mainTable, List.nil_append, List.flatMap_cons,
        List.flatMap_nil, List.append_nil, tableOf, List.cons_append, List.mem_cons, List.not_mem_nil, or_false] at h4
      rcases h4 with (rfl | rfl | rfl | rfl) | rfl <;> subst h5 <;> simp
    simp only [List.mem_cons, List.not_mem_nil, or_false] at hl
    rcases hl with rfl | rfl
    · rw [Demo.rl_app] at h2
      simp only [List.mem_cons, List.not_mem_nil, or_false, Prod.mk.injEq] at h2
      rcases h2 with ⟨rfl, -⟩ | ⟨-, rfl⟩ | ⟨rfl, -⟩ | ⟨rfl, -⟩
      · exact absurd h3 (by decide)
      · revert hf; decide +kernel
      · exact absurd h3 (by decide)
      · exact absurd h3 (by decide)
    · rw [Demo.rl_libc] at h2; cases h2

/-- C11, any set of words: words that are a slot of no object admitted by the filter in force at any
event of the history hold what the loader alone would have put there. -/
theorem C11_words_never_admitted {p : Process} (ok : p.Ok) {strict : Prop} {ops : List Op}
    (h : Events p strict ops) {s os} (hr : run p.env ops p.start = .ok (s, os)) {R : Addr → Prop}
    (hR : ∀ pre op post, ops = pre ++ op :: post → ∀ l,
      Admitted (filterAfter (pre ++ [op])) (libsAfter p.libs (pre ++ [op])) l →
      ∀ q ∈ rlOf l, ¬ R (l.addr + q.1)) :
    ∀ a, R a → s.mem a = loaderMem p.mem ops a := by
  induction ops using List.reverseRecOn generalizing s os with
  | nil => intro a _; cases hr; rfl
  | append_singleton ops op ih =>
    intro a ha
    obtain ⟨s1, os1, o, h1, h2, -⟩ := run_last hr
    have := ih h.prefix h1 (by
      intro pre op' post e
      exact hR pre op' (post ++ [op]) (by rw [e]; simp)) a ha
    rw [loaderMem, List.foldl_append]
    show _ = loaderWord op a (loaderMem p.mem ops a)
    rw [← this]
    rcases C10_only_slots_of_wrapped_functions ok h h1 hr a with e | ⟨l, off, f, u, e1, e2, e3, -⟩
    · exact e
    · exact absurd ha (by rw [e3]; exact hR ops op [] (by simp) l e1 (off, f) e2)

theorem events_objs {p : Process} (ok : p.Ok) {strict : Prop} {ops : List Op}
    (h : Events p strict ops) {s os} (hr : run p.env ops p.start = .ok (s, os)) :
    ∀ l ∈ libsAfter p.libs ops, p.U l := by
  have ht := events_run ok h hr
  rw [← (events_env ok ops h hr).1]
  rcases ht with ht | ⟨v, G, ht⟩
  · exact fun l hl => (ht.objs l hl).1
  · exact fun l hl => (ht.inv.objs l hl).1

theorem run_prefix {env : Env} (pre post : List Op) {s0 s : State} {os}
    (h : run env (pre ++ post) s0 = .ok (s, os)) : ∃ s1 os1, run env pre s0 = .ok (s1, os1) := by
  rw [run_append_model] at h
  cases h1 : run env pre s0 with
  | error e => simp [h1, bind, Except.bind] at h
  | ok x => exact ⟨x.1, x.2, rfl⟩

/-- C11.  A library rejected by the filter in force at every event keeps all its words (`R`, which no
other object has GOT slots in) exactly as the loader left them. -/
theorem C11_rejected_library_untouched {p : Process} (ok : p.Ok) {strict : Prop} {ops : List Op}
    (h : Events p strict ops) {s os} (hr : run p.env ops p.start = .ok (s, os)) {l0 : Lib}
    {R : Addr → Prop} (hown : ∀ l, p.U l → l ≠ l0 → ∀ q ∈ rlOf l, ¬ R (l.addr + q.1))
    (hrej : ∀ pre op post, ops = pre ++ op :: post →
      ¬ Admitted (filterAfter (pre ++ [op])) (libsAfter p.libs (pre ++ [op])) l0) :
    ∀ a, R a → s.mem a = loaderMem p.mem ops a := by
  refine C11_words_never_admitted ok h hr ?_
  intro pre op post e l hl q hq
  have e' : ops = (pre ++ [op]) ++ post := by rw [e]; simp
  subst e'
  obtain ⟨s1, os1, h1⟩ := run_prefix _ _ hr
  refine hown l ?_ ?_ q hq
  · apply events_objs ok h.prefix h1
    obtain ⟨X, Y, e, -⟩ := hl
    rw [e]; simp
  · rintro rfl
    exact hrej pre op post e hl

theorem filter_same (f : Filter) (ops : List Op) (h : ∀ g, Op.setFilter g ∉ ops) :
    ops.foldl filterStep f = f := by
  induction ops with
  | nil => rfl
  | cons o ops ih =>
    rw [List.foldl_cons, show filterStep f o = f by
      cases o with
      | setFilter g => exact absurd (List.mem_cons_self ..) (h g)
      | _ => rfl]
    exact ih (fun g hg => h g (List.mem_cons_of_mem _ hg))

/-- C11 for gotcha_filter_libraries_by_name called first: libraries whose name does not contain the
given text are left alone. -/
theorem C11_filter_by_name {p : Process} (ok : p.Ok) {strict : Prop} {f : Name} {ops : List Op}
    (hf : ∀ g, Op.setFilter g ∉ ops)
    (h : Events p strict (.setFilter (.byName (some f)) :: ops)) {s os}
    (hr : run p.env (.setFilter (.byName (some f)) :: ops) p.start = .ok (s, os)) {l0 : Lib}
    (hn : ∀ n, l0.name = some n → ¬ f <:+: n)
    {R : Addr → Prop} (hown : ∀ l, p.U l → l ≠ l0 → ∀ q ∈ rlOf l, ¬ R (l.addr + q.1)) :
    ∀ a, R a → s.mem a = loaderMem p.mem ops a := by
  have := C11_rejected_library_untouched ok h hr hown (by
    rintro pre op post e ⟨X, Y, -, hl⟩
    have hflt : filterAfter (pre ++ [op]) = .byName (some f) := by
      cases pre with
      | nil =>
        simp only [List.nil_append, List.cons.injEq] at e
        rw [← e.1]; rfl
      | cons o pre =>
        simp only [List.cons_append, List.cons.injEq] at e
        rw [← e.1]
        show List.foldl filterStep (.byName (some f)) (pre ++ [op]) = _
        apply filter_same
        intro g hg
        refine hf g ?_
        rw [e.2]
        rcases List.mem_append.1 hg with h | h
        · simp [h]
        · rw [List.mem_singleton] at h; simp [h]
    rw [hflt] at hl
    obtain ⟨n, hn1, hn2⟩ := hl
    exact hn n hn1 hn2)
  exact this

/-- With the filter "plugin" the slots of the application stay as the loader left them. -/
example : ∃ s os, run Demo.env Demo.ops3 Demo.proc.start = .ok (s, os) ∧
    s.mem 0x10000018 = 0 ∧ s.mem 0x10000028 = 0 := by
  obtain ⟨s, os, hr⟩ := Demo.demo_run3
  have := C11_filter_by_name Demo.proc_ok (by intro g; simp) Demo.history3.toEvents hr
    (l0 := Demo.app) (by
      rintro n ⟨⟩
      rw [← occursIn_iff]
      decide +kernel)
    (R := fun a => a = 0x10000018 ∨ a = 0x10000028) (by
      rintro l (rfl | rfl | rfl) hne q hq
      · exact absurd rfl hne
      · rw [Demo.rl_libc] at hq; cases hq
      · rw [Demo.rl_plug, List.mem_singleton] at hq
        subst hq
        decide)
  exact ⟨s, os, hr, this _ (Or.inl rfl), this _ (Or.inr rfl)⟩

theorem lib_lookup {p : Process} (ok : p.Ok) {seen t libs lm} (h : LibInv p.U seen t libs lm)
    {l : Lib} (hU : p.U l) : t.lookup (linkMapHash l) (linkMapEq l.lm) = .ok (lm l) :=
  lookup_lib ok.world h.tab hU

/-- C26, dlopen.  The pass over the libraries made by an intercepted dlopen would write nothing new
into a library that was there before (so skipping it loses nothing), and the libraries that have
just been loaded have no record yet (so they are not skipped). -/
theorem C26_skipping_in_dlopen_loses_nothing {p : Process} (ok : p.Ok) {ops : List Op} {ld : Load}
    (h : Events p True (ops ++ [.dlopen ld])) {s os} (hr : run p.env ops p.start = .ok (s, os))
    (hi : s.inited = true) :
    (∀ l ∈ libsAfter p.libs ops, ∀ off f, (off, f) ∈ rlOf l → ∀ b x,
      nameLookup s.funTab f = .ok (some b) → s.bind b = .ok x →
      (s.load ld).mem (l.addr + off) = x.user.wrapper) ∧
    ∀ l ∈ ld.libs, s.libTab.lookup (linkMapHash l) (linkMapEq l.lm) = .ok none := by
  have ht := events_run ok h.prefix hr
  have hl := (events_env ok ops h.prefix hr).1
  obtain ⟨-, hv⟩ := valid_snoc ops _ (start_valid (hon := False) h fun hc => absurd hc id)
  rcases ht with ht | ⟨v, G, ht⟩
  · rw [ht.st] at hi; cases hi
  have hA : (Abs.run (p.ctx False True).env ops p.abs).1.libs = s.linkMap := ht.inv.libs
  have hlo : LoadOk (p.ctx False True) (seenRun p.seen ops) s.linkMap ld := by rw [← hA]; exact hv.1
  refine ⟨?_, ?_⟩
  · intro l hlm off f hoff b x hb hx
    rw [← hl] at hlm
    have hb' : (G.ch f).head? = some b := by
      have := lookup_tab ht.inv.fn (k := f) (eq := fun k => k = f) name_eq
      unfold nameLookup at hb
      rw [this] at hb
      exact Except.ok.inj hb
    have := (ht.inv.slots trivial).slot l hlm trivial (off, f) hoff (ht.dirty f) b hb'
    have hw : bwr s.binds b = some x.user.wrapper := by
      unfold State.bind at hx
      cases hbb : s.binds[b]? with
      | none => simp [hbb] at hx
      | some y =>
        simp only [hbb, Except.ok.injEq] at hx
        simp [bwr, btu, hbb, hx]
    rw [hw] at this
    show (ld.mem (l.addr + off)).getD (s.mem (l.addr + off)) = _
    rw [hlo.keep trivial l hlm trivial (off, f) hoff]
    exact (Option.some.inj this).symm
  · intro l hlm
    have := lib_lookup ok ht.inv.lib (hlo.objs l hlm)
    rw [this]
    cases hm : G.lm l with
    | none => rfl
    | some r =>
      exfalso
      have := ht.inv.lib.seen hm
      rw [ht.seen] at this
      exact (hlo.again l hlm this).1 trivial trivial

/-- C26, gotcha_wrap.  When gotcha_wrap starts a new generation no loaded library is marked as being of
that generation, so its pass over the libraries skips none. -/
theorem C26_wrap_skips_no_library {p : Process} (ok : p.Ok) {ops : List Op} {op : Op}
    (h : Events p True (ops ++ [op])) {s os} (hr : run p.env ops p.start = .ok (s, os)) :
    ∀ l ∈ libsAfter p.libs ops, ∀ r rec,
      s.libTab.lookup (linkMapHash l) (linkMapEq l.lm) = .ok (some r) → s.libs[r]? = some rec →
      rec.gen ≠ s.gen + 1 := by
  intro l hlm r rec hlk hrec
  have ht := events_run ok h.prefix hr
  rw [← (events_env ok ops h.prefix hr).1] at hlm
  rcases ht with ht | ⟨v, G, ht⟩
  · rw [ht.st] at hrec; cases hrec
  have hU := (ht.inv.objs l hlm).1
  have hg := (ht.inv.slots trivial).gens l
  have hp := ht.pot trivial
  have hsh := h.short trivial
  rw [List.length_append, List.length_singleton] at hsh
  have := lib_lookup ok ht.inv.lib hU
  rw [hlk] at this
  have hm : G.lm l = some r := (Except.ok.inj this).symm
  have hga : genAt s.libs G.lm l = rec.gen := by
    simp [genAt, recAt, hm, hrec]
  rw [hga] at hg
  intro hc
  have hgen : s.gen.toNat < 2 ^ 32 - 1 := by
    unfold pot at hp
    omega
  rw [hc, BitVec.toNat_add] at hg
  have : (1 : BitVec 32).toNat = 1 := rfl
  rw [this, Nat.mod_eq_of_lt (by omega)] at hg
  omega

/-- Both hold in the demo after three events. -/
example : ∃ s os, run Demo.env (Demo.ops.take 3) Demo.proc.start = .ok (s, os) ∧
    (s.inited = true → s.libTab.lookup (linkMapHash Demo.plug) (linkMapEq Demo.plug.lm) = .ok none) ∧
    ∀ l ∈ [Demo.app, Demo.libc], ∀ r rec,
      s.libTab.lookup (linkMapHash l) (linkMapEq l.lm) = .ok (some r) → s.libs[r]? = some rec →
      rec.gen ≠ s.gen + 1 := by
  obtain ⟨s, os, hr⟩ := Demo.prefix_run 3
  have h : History Demo.proc True (Demo.ops.take 3 ++ [.dlopen Demo.loadPlug]) :=
    Demo.prefix_history True 4
  refine ⟨s, os, hr, ?_, C26_wrap_skips_no_library Demo.proc_ok h.toEvents hr⟩
  intro hi
  exact (C26_skipping_in_dlopen_loses_nothing Demo.proc_ok h.toEvents hr hi).2 Demo.plug
    (by simp [Demo.loadPlug])

/-- C27.  With no hash collisions among the objects that ever get loaded, the record found for a loaded
library was created for that library, and two libraries never share one. -/
theorem C27_records_belong_to_their_library {p : Process} (ok : p.Ok) {strict : Prop}
    {ops : List Op} (h : Events p strict ops) {s os} (hr : run p.env ops p.start = .ok (s, os)) :
    (∀ l ∈ libsAfter p.libs ops, ∀ r,
      s.libTab.lookup (linkMapHash l) (linkMapEq l.lm) = .ok (some r) →
      ∃ rec, s.libs[r]? = some rec ∧ rec.map = l.lm) ∧
    ∀ l ∈ libsAfter p.libs ops, ∀ l' ∈ libsAfter p.libs ops, ∀ r,
      s.libTab.lookup (linkMapHash l) (linkMapEq l.lm) = .ok (some r) →
      s.libTab.lookup (linkMapHash l') (linkMapEq l'.lm) = .ok (some r) → l = l' := by
  have ht := events_run ok h hr
  rw [← (events_env ok ops h hr).1]
  rcases ht with ht | ⟨v, G, ht⟩
  · have hlk : ∀ (hv : BitVec 32) eq r, s.libTab.lookup hv eq ≠ .ok (some r) := by
      intro hv eq r hc
      rw [ht.st] at hc
      simp [State.start, HTable.lookup, HTable.blank, HTable.lookupEntry, HTable.size] at hc
    exact ⟨fun l _ r hc => absurd hc (hlk _ _ _), fun l _ l' _ r hc => absurd hc (hlk _ _ _)⟩
  have hm : ∀ l ∈ s.linkMap, ∀ r, s.libTab.lookup (linkMapHash l) (linkMapEq l.lm) = .ok (some r) →
      G.lm l = some r := by
    intro l hl r hlk
    have hU := (ht.inv.objs l hl).1
    have := lib_lookup ok ht.inv.lib hU
    rw [hlk] at this
    exact (Except.ok.inj this).symm
  refine ⟨?_, ?_⟩
  · intro l hl r hlk
    have := hm l hl r hlk
    have hb := ht.inv.lib.bound this
    exact ⟨_, List.getElem?_eq_getElem hb, ht.inv.lib.own this (List.getElem?_eq_getElem hb)⟩
  · intro l hl l' hl' r h1 h2
    exact ht.inv.lib.inj (hm l hl r h1) (hm l' hl' r h2)

/-- The demo: after a dlopen, each of the three libraries that has a record has its own. -/
example : ∃ s os, run Demo.env Demo.ops Demo.proc.start = .ok (s, os) ∧
    ∀ r, s.libTab.lookup (linkMapHash Demo.plug) (linkMapEq Demo.plug.lm) = .ok (some r) →
      s.libTab.lookup (linkMapHash Demo.app) (linkMapEq Demo.app.lm) ≠ .ok (some r) := by
  obtain ⟨s, os, hr⟩ := Demo.demo_run
  refine ⟨s, os, hr, fun r h1 h2 => ?_⟩
  have := (C27_records_belong_to_their_library Demo.proc_ok (Demo.history True).toEvents
    hr).2 Demo.plug (by rw [show libsAfter Demo.proc.libs Demo.ops = _ from Demo.libs_ops]; simp)
    Demo.app (by rw [show libsAfter Demo.proc.libs Demo.ops = _ from Demo.libs_ops]; simp) r h1 h2
  exact Demo.names_ne.2.1 (congrArg Lib.name this).symm

namespace Demo

/-- Two objects without a name whose link_map addresses agree in the low 32 bits: an application and,
after it in the link map, a second object with a slot for `foo`. -/
def twinA : Lib := obj 0x7f0000001000 "" 0x10000000 [] [(0x18, nm "foo")]
def twinB : Lib := obj 0x7e0000001000 "" 0x40000000 [] [(0x18, nm "foo")]

theorem twin_run : (match run env [.wrap [⟨nm "foo", 0x50a, 10⟩] (some B)]
      (State.start [twinA, libc, twinB] (fun _ => 0) (fun _ => true)) with
    | .ok (s, _) =>
      decide (s.mem 0x10000018 = 0x50a) && decide (s.mem 0x40000018 = 0) &&
        (match s.libTab.lookup (linkMapHash twinB) (linkMapEq twinB.lm) with
        | .ok (some r) => (s.libs[r]?).any fun rec => decide (rec.map = twinA.lm)
        | _ => false)
    | .error _ => false) = true := by decide +kernel

end Demo

/-- C27, with a collision: the record found for the second object is the first one's, and so its slot
for a wrapped function is never written. -/
theorem C27_collision_refuted :
    Demo.twinA.lm ≠ Demo.twinB.lm ∧ linkMapHash Demo.twinA = linkMapHash Demo.twinB ∧
    (0x18, nm "foo") ∈ rlOf Demo.twinB ∧
    ∃ s os, run Demo.env [.wrap [⟨nm "foo", 0x50a, 10⟩] (some Demo.B)]
        (State.start [Demo.twinA, Demo.libc, Demo.twinB] (fun _ => 0) (fun _ => true)) =
          .ok (s, os) ∧
      (∃ r rec, s.libTab.lookup (linkMapHash Demo.twinB) (linkMapEq Demo.twinB.lm) =
        .ok (some r) ∧ s.libs[r]? = some rec ∧ rec.map = Demo.twinA.lm) ∧
      s.mem (Demo.twinA.addr + 0x18) = 0x50a ∧ s.mem (Demo.twinB.addr + 0x18) = 0 := by
  refine ⟨by decide, by decide +kernel, ?_, ?_⟩
  · rw [Demo.twinB, Demo.rlOf_obj (by decide)]; simp
  have h := Demo.twin_run
  cases hr : run Demo.env [.wrap [⟨nm "foo", 0x50a, 10⟩] (some Demo.B)]
      (State.start [Demo.twinA, Demo.libc, Demo.twinB] (fun _ => 0) (fun _ => true)) with
  | error e => rw [hr] at h; cases h
  | ok x =>
    obtain ⟨s, os⟩ := x
    simp only [hr, Bool.and_eq_true, decide_eq_true_eq] at h
    refine ⟨s, os, rfl, ?_, h.1.1, h.1.2⟩
    have h2 := h.2
    split at h2
    · rename_i r hl
      cases hg : s.libs[r]? with
      | none => simp [hg] at h2
      | some rec => exact ⟨r, rec, hl, hg, by simpa [hg] using h2⟩
    · cases h2

end Gotcha
