import Verif.Proof.CoreRun
/-
Every event preserves the invariant that holds between events.
-/
namespace Gotcha
open HTable
open Spec (exportsAt firstDef insertBefore Frame Abs)

/-- What honest clients do, in terms of the abstract state: every binding has its own handle
variable, used by no earlier binding and by none of GOTCHA's, and the wrapper reads that handle. -/
structure HonA (env : Env) (P : Addr → Option HAddr) (A : Abs) (tbl : List UBinding) : Prop where
  nodup : (tbl.map UBinding.handle).Nodup
  prog : ∀ u ∈ tbl, P u.wrapper = some u.handle
  unused : ∀ u ∈ tbl, ∀ f, ∀ fr ∈ A.stack f, fr.handle ≠ u.handle
  own : ∀ u ∈ tbl, u.handle ≠ env.hLibcMain ∧ u.handle ≠ env.hMain

theorem Post.honT {C : Ctx} {seen n s G A} (h : Post C seen n s G A) (hh : C.hon)
    {tbl : List UBinding} (ht : HonA C.env C.P A tbl) : HonT C s tbl where
  nodup := ht.nodup
  prog := ht.prog
  unused := by
    intro b t u hb hin
    obtain ⟨v, hv, e⟩ := List.mem_map.1 hin
    rcases h.inv.onch hh b (btu_lt hb) with hx | ⟨f, hf⟩
    · exact h.pend b hx
    · refine ht.unused v hv f (frameOf s.binds (Tools.np s.tools.store) b) ?_ ?_
      · rw [h.inv.stack hh]; exact List.mem_map_of_mem hf
      · simp [frameOf, hb, e]
  fresh := fun _ => ht.own

/-- When the GOTs are claimed to stay up to date, a table naming "main" must not be the first one
doing so, unless "main" is its only entry and the tool's priority is not above GOTCHA's own. -/
def MainOk (A : Abs) (tbl : List UBinding) (tool : Option Name) : Prop :=
  (∀ u ∈ tbl, u.name ≠ nm "main") ∨ A.mainWrapped = true ∨
    ∃ u, tbl = [u] ∧ u.name = nm "main" ∧
      A.prioOf (tool.getD (nm "[UNSPECIFIED]")) ≤ A.prioOf (nm "gotcha")

theorem wrap_post {C : Ctx} (w : World C.env C.U) (henv : C.hon → EnvOk C.env C.P) {seen n s G A}
    (h : Post C seen n s G A) (tbl : List UBinding) (tool : Option Name)
    (hh : C.hon → HonA C.env C.P A tbl) (hmn : C.sl → MainOk A tbl tool)
    (hn : C.sl → n + 1 < 2 ^ 32) :
    ∃ s' G' c, wrapBody C.env tbl tool s = .ok (s', c) ∧
      Post C seen (n + 1) s' G' (Abs.wrap (Abs.onMain C.env) tbl tool A).1 ∧
      (C.hon → c = (Abs.wrap (Abs.onMain C.env) tbl tool A).2) ∧ Keep C s G s' G' := by
  obtain ⟨s1, G1, c, e1, e2, e3, e4, e5, e6, e7, e8, e9, e10, e11, e12⟩ := wrapCore_spec w
    (onMainReal_spec w henv) h.inv tbl tool (fun hx => h.honT hx (hh hx))
    (fun hs => by have := hn hs; have := h.pot hs; omega)
    (fun hs => by
      rcases hmn hs with hx | hx | ⟨u, hx1, hx2, hx3⟩
      · exact Or.inl hx
      · exact Or.inr (Or.inl (by rw [← h.inv.mainW]; exact hx))
      · refine Or.inr (Or.inr ⟨u, hx1, hx2, ?_⟩)
        rw [touch_prioOf, onMain_prioOf, touch_prioOf]; exact hx3)
  refine ⟨s1, G1, c, e1, ⟨e2, ?_, ?_, ?_, ?_, ?_, ?_, ?_⟩, e3, e4⟩
  · intro b hb; rw [e5] at hb; exact h.pend b hb
  · intro f hf; rw [e6] at hf; exact h.dirty f hf
  · rw [e4.seen]; exact h.seen
  · rw [e4.vds (by rw [h.vd]; simp)]; exact h.vd
  · intro hs; have := e7 hs; have := h.pot hs; omega
  · intro hs; have := e12 hs; omega
  · intro u hu
    obtain ⟨b, t, hb⟩ := h.dlb u hu
    exact ⟨b, t, e4.tu hb⟩

/-! ### priorities -/

theorem modify_at {α : Type} (l : List α) (i j : Nat) (f : α → α) :
    (l.modify i f)[j]? = if i = j then (l[j]?).map f else l[j]? := by
  rw [List.getElem?_modify]
  by_cases e : i = j
  · simp only [if_pos e]; rfl
  · simp only [if_neg e]; cases l[j]? <;> rfl

theorem setPriority_post {C : Ctx} {seen n s G A} (h : Post C seen n s G A) (t : Name) (v : Int) :
    ∃ ts, s.tools.setPriority t v = .ok ts ∧
      Post C seen n { s with tools := ts } G { A with prio := upd A.prio t (some v) } := by
  obtain ⟨L, hok⟩ := h.inv.tools
  obtain ⟨ts, L', i, ts1, hset, hok', hgc, hnp⟩ := Tools.setPriority_spec hok t v
  obtain ⟨ts1', L1, i', tt, hgc', hok1, hget, hname, hcase⟩ := Tools.getOrCreate_spec hok t
  rw [hgc] at hgc'
  cases hgc'
  have hpre : Tools.np s.tools.store <+: Tools.np ts1.store := by
    rcases hcase with ⟨-, rfl⟩ | ⟨-, -, e⟩
    · exact List.prefix_refl _
    · rw [e]; exact List.prefix_append _ _
  have hlen : s.tools.store.length ≤ ts.store.length := by
    have h1 := hpre.length_le
    have h2 := congrArg List.length hnp
    simp [Tools.np] at h1 h2
    omega
  have hnames : ∀ {j : Nat} {x : Name × Int}, (Tools.np s.tools.store)[j]? = some x →
      ∃ v', (Tools.np ts.store)[j]? = some (x.1, v') := by
    intro j x hx
    obtain ⟨z, hz⟩ := hpre
    rw [hnp, ← hz, modify_at,
      List.getElem?_append_left (List.getElem?_eq_some_iff.1 hx).1, hx]
    by_cases e : i = j
    · exact ⟨v, by simp [e]⟩
    · exact ⟨x.2, by simp [e]⟩
  have hprio : ∀ m x, upd A.prio t (some v) m = some x ↔ (m, x) ∈ Tools.np ts.store := by
    intro m x
    have hmem : (m, x) ∈ Tools.np ts.store ↔
        (m = t ∧ x = v) ∨ (m ≠ t ∧ (m, x) ∈ Tools.np ts1.store) := by
      rw [hnp]
      constructor
      · intro hm
        obtain ⟨j, hj⟩ := List.mem_iff_getElem?.1 hm
        rw [modify_at] at hj
        by_cases e : i = j
        · subst e
          simp only [if_true, Tools.np, List.getElem?_map, hget, Option.map_some,
            Option.some.injEq, Prod.mk.injEq] at hj
          left; exact ⟨by rw [← hj.1, hname], hj.2.symm⟩
        · rw [if_neg e] at hj
          right
          refine ⟨?_, List.mem_of_getElem? hj⟩
          intro em
          simp only [Tools.np, List.getElem?_map, Option.map_eq_some_iff] at hj
          obtain ⟨y, hy1, hy2⟩ := hj
          have : y.name = tt.name := by
            rw [hname, ← em]; exact congrArg Prod.fst hy2
          exact e (Tools.names_inj hok1.names hget hy1 this.symm)
      · rintro (⟨rfl, rfl⟩ | ⟨hne, hm⟩)
        · refine List.mem_iff_getElem?.2 ⟨i, ?_⟩
          simp [modify_at, Tools.np, hget, hname]
        · obtain ⟨j, hj⟩ := List.mem_iff_getElem?.1 hm
          refine List.mem_iff_getElem?.2 ⟨j, ?_⟩
          have e : i ≠ j := by
            intro e
            subst e
            simp only [Tools.np, List.getElem?_map, hget, Option.map_some, Option.some.injEq,
              Prod.mk.injEq] at hj
            exact hne (by rw [← hj.1, hname])
          rw [modify_at, if_neg e, hj]
    rw [hmem]
    by_cases e : m = t
    · subst e; simp [eq_comm]
    · rw [upd_ne _ _ e]
      simp only [e, false_and, ne_eq, not_false_eq_true, true_and, false_or]
      rw [h.inv.prio m x]
      rcases hcase with ⟨-, rfl⟩ | ⟨-, -, e'⟩
      · exact Iff.rfl
      · rw [e']; simp [e]
  have hI := h.inv
  refine ⟨ts, hset, ?_, h.pend, h.dirty, h.seen, h.vd, h.pot, h.gen, h.dlb⟩
  exact
    { tools := ⟨L', hok'⟩
      bind := { hI.bind with okt := fun hb => Nat.lt_of_lt_of_le (hI.bind.okt hb) hlen }
      fn := hI.fn
      nf := hI.nf
      nfm := hI.nfm
      lib := hI.lib
      wr := hI.wr
      objs := hI.objs
      nd := hI.nd
      placed := hI.placed
      vd := hI.vd
      hon := hI.hon
      nfr := hI.nfr
      fresh := hI.fresh
      onch := hI.onch
      slots := hI.slots
      prio := hprio
      stack := by
        intro hh f
        show A.stack f = (G.ch f).map (frameOf s.binds (Tools.np ts.store))
        rw [hI.stack hh f]
        refine List.map_congr_left ?_
        intro b hb
        obtain ⟨tb, ub, hbu, -⟩ := hI.bind.named hb
        obtain ⟨nb, vb, hnb⟩ := np_at hI hbu
        obtain ⟨v2, hv2⟩ := hnames hnb
        simp only [frameOf, hbu, hnb, hv2, Option.map_some]
      real := hI.real
      libs := hI.libs
      vdso := hI.vdso
      mainW := hI.mainW
      init := hI.init
      init' := hI.init' }

theorem getPriority_post {C : Ctx} {seen n s G A} (h : Post C seen n s G A) (t : Name) :
    s.tools.getPriority t = .ok (A.prio t) := by
  obtain ⟨L, hok⟩ := h.inv.tools
  unfold Tools.getPriority
  rcases Tools.getTool_spec hok t with ⟨i, tt, h1, h2, h3⟩ | ⟨h1, h2⟩
  · have hm : (t, tt.priority) ∈ Tools.np s.tools.store :=
      List.mem_map.2 ⟨tt, List.mem_of_getElem? h2, by simp [h3]⟩
    rw [(h.inv.prio t tt.priority).2 hm, h1]
    simp only [h2]
    split
    · rfl
    · rename_i hc
      simp only [ne_eq, not_not] at hc
      rw [hc]
  · rw [h1]
    cases hx : A.prio t with
    | none => rfl
    | some x =>
      have := (h.inv.prio t x).1 hx
      obtain ⟨y, hy1, hy2⟩ := List.mem_map.1 this
      exact absurd (List.mem_map.2 ⟨y, hy1, congrArg Prod.fst hy2⟩) h2

/-! ### filter, loading and unloading -/

theorem setFilter_post {C : Ctx} {seen n s G A} (h : Post C seen n s G A) (f : Filter)
    (hf : C.sl → Admits f C.good) : Post C seen n { s with filter := f } G A := by
  have hI := h.inv
  refine ⟨?_, h.pend, h.dirty, h.seen, h.vd, h.pot, h.gen, h.dlb⟩
  exact { hI with
    slots := fun hs =>
      { all := hf hs, cons := (hI.slots hs).cons, gens := (hI.slots hs).gens,
        slot := (hI.slots hs).slot } }

/-- What is assumed about objects that get loaded: they are known objects at fresh link_map
addresses, each slot is writable or gets covered by `mark_got_writable`, and loading them leaves the
slots of the objects already there alone. -/
structure LoadOk (C : Ctx) (seen : Lib → Prop) (linkMap : List Lib) (ld : Load) : Prop where
  objs : ∀ l ∈ ld.libs, C.U l
  nd : ((linkMap ++ ld.libs).map (·.lm)).Nodup
  again : ∀ l ∈ ld.libs, seen l → (C.sl → ¬ C.good l) ∧ ∀ p ∈ rlOf l, ld.wr (l.addr + p.1) = some true
  placed : Placed (linkMap ++ ld.libs)
  old : ∀ l ∈ linkMap, ∀ p ∈ rlOf l, ld.wr (l.addr + p.1) ≠ some false
  cover : ∀ l ∈ ld.libs, ∀ p ∈ rlOf l,
    ld.wr (l.addr + p.1) = some true ∨ markedBy C.env l (l.addr + p.1)
  cons : C.sl → SlotCons (linkMap ++ ld.libs)
  keep : C.sl → ∀ l ∈ linkMap, C.good l → ∀ p ∈ rlOf l, ld.mem (l.addr + p.1) = none

def seenWith (seen : Lib → Prop) (libs : List Lib) : Lib → Prop :=
  fun l => seen l ∨ l ∈ libs

theorem wr_load {C : Ctx} {seen linkMap ld} (hld : LoadOk C seen linkMap ld) {l : Lib}
    (hl : l ∈ linkMap) {p} (hp : p ∈ rlOf l) {wr : Addr → Bool} (h : wr (l.addr + p.1) = true) :
    (ld.wr (l.addr + p.1)).getD (wr (l.addr + p.1)) = true := by
  have := hld.old l hl p hp
  cases hx : ld.wr (l.addr + p.1) with
  | none => simpa using h
  | some b => cases b with
    | true => rfl
    | false => exact absurd hx this

/-- The invariant right after the loader has added objects: every slot may be out of date. -/
theorem load_inv {C : Ctx} {s G A} (h : Inv C s G A) {ld : Load}
    (hld : LoadOk C G.seen s.linkMap ld) (hv : s.vdso = some C.v) :
    Inv C (s.load ld)
      { G with seen := seenWith G.seen ld.libs, dirty := fun _ => True }
      { A with libs := A.libs ++ ld.libs } where
  tools := h.tools
  bind := h.bind
  fn := h.fn
  nf := h.nf
  nfm := h.nfm
  lib := ⟨h.lib.tab, h.lib.bound, h.lib.inj, fun hr => Or.inl (h.lib.seen hr), h.lib.own⟩
  wr := by
    constructor
    · intro l hl p hp
      rcases List.mem_append.1 hl with hl | hl
      · rcases h.wr.cover l hl p hp with hx | hx
        · exact Or.inl (wr_load hld hl hp hx)
        · exact Or.inr hx
      · rcases hld.cover l hl p hp with hx | hx
        · left; show (ld.wr _).getD _ = true; rw [hx]; rfl
        · exact Or.inr hx
    · intro l hl rec hr hw p hp
      rcases List.mem_append.1 hl with hl | hl
      · exact wr_load hld hl hp (h.wr.flag l hl rec hr hw p hp)
      · replace hr : recAt s.libs G.lm l = some rec := hr
        unfold recAt at hr
        cases hx : G.lm l with
        | none => simp [hx] at hr
        | some r =>
          show (ld.wr _).getD _ = true
          rw [(hld.again l hl (h.lib.seen hx)).2 p hp]
          rfl
  objs := by
    intro l hl
    rcases List.mem_append.1 hl with hl | hl
    · exact ⟨(h.objs l hl).1, Or.inl (h.objs l hl).2⟩
    · exact ⟨hld.objs l hl, Or.inr hl⟩
  nd := hld.nd
  placed := hld.placed
  vd := Or.inl hv
  hon := h.hon
  nfr := h.nfr
  fresh := h.fresh
  onch := h.onch
  slots := by
    intro hs
    have hS := h.slots hs
    exact ⟨hS.all, hld.cons hs, hS.gens, fun l hl hg p hp hd => absurd trivial hd⟩
  prio := h.prio
  stack := h.stack
  real := h.real
  libs := by show A.libs ++ ld.libs = s.linkMap ++ ld.libs; rw [h.libs]
  vdso := h.vdso
  mainW := h.mainW
  init := h.init
  init' := h.init'

/-- Objects loaded without GOTCHA noticing (then no claim about their slots is made). -/
theorem load_post {C : Ctx} {seen n s G A} (h : Post C seen n s G A) {ld : Load}
    (hld : LoadOk C seen s.linkMap ld) (hsl : C.sl → ∀ l ∈ ld.libs, ¬ C.good l) :
    Post C (seenWith seen ld.libs) n (s.load ld)
      { G with seen := seenWith seen ld.libs } { A with libs := A.libs ++ ld.libs } := by
  have hs := h.seen
  have hI := load_inv h.inv (by rw [hs]; exact hld) h.vd
  refine ⟨?_, h.pend, h.dirty, rfl, h.vd, h.pot, h.gen, h.dlb⟩
  rw [← hs]
  exact { hI with
    slots := fun hx =>
      { all := (h.inv.slots hx).all
        cons := hld.cons hx
        gens := (h.inv.slots hx).gens
        slot := by
          intro l hl hg p hp hd b hb
          replace hl : l ∈ s.linkMap ++ ld.libs := hl
          rcases List.mem_append.1 hl with hl | hl
          · show bwr s.binds b = some ((ld.mem (l.addr + p.1)).getD (s.mem (l.addr + p.1)))
            rw [hld.keep hx l hl hg p hp]
            exact (h.inv.slots hx).slot l hl hg p hp hd b hb
          · exact absurd hg (hsl hx l hl) } }

theorem unload_post {C : Ctx} {seen n s G A} (h : Post C seen n s G A) (dead : Addr → Bool) :
    Post C seen n (s.unload dead) G { A with libs := A.libs.filter (fun l => !dead l.lm) } := by
  have hI := h.inv
  have hsub : ∀ {l}, l ∈ (s.unload dead).linkMap → l ∈ s.linkMap :=
    fun hl => (List.mem_filter.1 hl).1
  refine ⟨?_, h.pend, h.dirty, h.seen, h.vd, h.pot, h.gen, h.dlb⟩
  exact
    { tools := hI.tools
      bind := hI.bind
      fn := hI.fn
      nf := hI.nf
      nfm := hI.nfm
      lib := hI.lib
      wr := ⟨fun l hl => hI.wr.cover l (hsub hl), fun l hl => hI.wr.flag l (hsub hl)⟩
      objs := fun l hl => hI.objs l (hsub hl)
      nd := by
        have : ((s.unload dead).linkMap.map (·.lm)).Sublist (s.linkMap.map (·.lm)) :=
          List.Sublist.map _ List.filter_sublist
        exact this.nodup hI.nd
      placed := fun l hl o ho => hI.placed l (hsub hl) o (hsub ho)
      vd := Or.inl h.vd
      hon := hI.hon
      nfr := hI.nfr
      fresh := hI.fresh
      onch := hI.onch
      slots := fun hs =>
        { all := (hI.slots hs).all
          cons := fun l hl l' hl' => (hI.slots hs).cons l (hsub hl) l' (hsub hl')
          gens := (hI.slots hs).gens
          slot := fun l hl => (hI.slots hs).slot l (hsub hl) }
      prio := hI.prio
      stack := hI.stack
      real := hI.real
      libs := by
        show A.libs.filter _ = s.linkMap.filter _
        rw [hI.libs]
      vdso := hI.vdso
      mainW := hI.mainW
      init := hI.init
      init' := hI.init' }

end Gotcha
