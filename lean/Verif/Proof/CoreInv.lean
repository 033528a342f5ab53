import Verif.Proof.CoreBind
/-
The invariant of the interception engine and its preservation by the processing of one binding.
-/
namespace Gotcha
open HTable
open Spec (exportsAt firstDef insertBefore Frame Abs)

/-- Fixed data of a run: environment, all objects that ever get loaded, which handle each wrapper
function reads, whether clients use one handle per binding (`hon`), whether the GOTs are claimed to
be kept up to date (`sl`), for which objects (`good`), and the vdso. -/
structure Ctx where
  env : Env
  U : Lib → Prop
  P : Addr → Option HAddr
  hon : Prop
  sl : Prop
  good : Lib → Prop
  v : Option Addr

/-- Ghost data: the chains, the resolved functions, the contents of the tables, the bindings not yet
put on a chain, the functions whose GOT slots may be out of date, the link maps ever seen. -/
structure Gh where
  ch : Name → List BId
  real : Name → Option Addr
  nf : Name → Option BId
  lm : Lib → Option Nat
  pend : BId → Prop
  dirty : Name → Prop
  seen : Lib → Prop

def frameOf (binds : List IBinding) (np : List (Name × Int)) (b : BId) : Frame :=
  match btu binds b with
  | none => ⟨[], 0, 0⟩
  | some (t, u) => ⟨((np[t]?).map (·.1)).getD [], u.wrapper, u.handle⟩

/-- The generation recorded for an object (0 when there is no record). -/
def genAt (libs : List LibRec) (lm : Lib → Option Nat) (a : Lib) : BitVec 32 :=
  ((recAt libs lm a).getD ⟨0, false, 0⟩).gen

/-- Every slot holds one function. -/
def SlotCons (linkMap : List Lib) : Prop :=
  ∀ l ∈ linkMap, ∀ l' ∈ linkMap, ∀ p ∈ rlOf l, ∀ q ∈ rlOf l', l.addr + p.1 = l'.addr + q.1 →
    p.2 = q.2

/-- The filter admits the objects in question, wherever they are on the link map. -/
def Admits (filter : Filter) (good : Lib → Prop) : Prop :=
  ∀ l, good l → ∀ b, filter.accepts l b = .ok true

structure SlotI (good : Lib → Prop) (linkMap : List Lib) (filter : Filter) (gen : BitVec 32) (libs : List LibRec)
    (lm : Lib → Option Nat) (mem : Addr → Addr) (binds : List IBinding) (ch : Name → List BId)
    (dirty : Name → Prop) : Prop where
  all : Admits filter good
  cons : SlotCons linkMap
  gens : ∀ l, (genAt libs lm l).toNat ≤ gen.toNat
  slot : ∀ l ∈ linkMap, good l → ∀ p ∈ rlOf l, ¬ dirty p.2 → ∀ b, (ch p.2).head? = some b →
    bwr binds b = some (mem (l.addr + p.1))

structure Inv (C : Ctx) (s : State) (G : Gh) (A : Abs) : Prop where
  tools : ∃ L, Tools.Ok s.tools L
  bind : BindInv s.binds s.handles s.tools.store.length G.ch G.pend
  fn : TabMap strhash s.funTab (fun f => (G.ch f).head?)
  nf : TabMap strhash s.notFound G.nf
  nfm : ∀ {f b}, G.nf f = some b → b ∈ G.ch f
  lib : LibInv C.U G.seen s.libTab s.libs G.lm
  wr : WrInv C.env s.linkMap s.wr s.libs G.lm
  objs : ∀ l ∈ s.linkMap, C.U l ∧ G.seen l
  nd : (s.linkMap.map (·.lm)).Nodup
  placed : Placed s.linkMap
  vd : VdOk C.env C.v s.vdso s.linkMap
  hon : C.hon → Hon C.P s.binds s.handles G.ch G.pend G.real
  nfr : C.hon → ∀ f, (G.nf f).isSome ↔ (G.ch f ≠ [] ∧ G.real f = none)
  fresh : C.hon → s.mainWrapped = false → ∀ {b t u}, btu s.binds b = some (t, u) →
    u.handle ≠ C.env.hLibcMain ∧ u.handle ≠ C.env.hMain
  onch : C.hon → ∀ b, b < s.binds.length → G.pend b ∨ ∃ f, b ∈ G.ch f
  slots : C.sl → SlotI C.good s.linkMap s.filter s.gen s.libs G.lm s.mem s.binds G.ch G.dirty
  prio : ∀ n v, A.prio n = some v ↔ (n, v) ∈ Tools.np s.tools.store
  stack : C.hon → ∀ f, A.stack f = (G.ch f).map (frameOf s.binds (Tools.np s.tools.store))
  real : C.hon → ∀ f, A.real f = G.real f
  libs : A.libs = s.linkMap
  vdso : A.vdso = C.v
  mainW : A.mainWrapped = s.mainWrapped
  init : s.inited = true
  init' : A.inited = true

theorem WrInv.ext {env linkMap wr libs lm libs' lm'} (h : WrInv env linkMap wr libs lm)
    (he : RecExt libs lm libs' lm') : WrInv env linkMap wr libs' lm' := by
  refine ⟨h.cover, ?_⟩
  intro l hl rec hr hw
  rcases he l with e | ⟨e1, e2⟩
  · exact h.flag l hl rec (by rw [← e]; exact hr) hw
  · rw [e2] at hr; cases hr; cases hw

theorem genAt_ext {libs lm libs' lm'} (he : RecExt libs lm libs' lm') (a : Lib) :
    genAt libs' lm' a = genAt libs lm a := by
  unfold genAt
  rcases he a with e | ⟨e1, e2⟩
  · rw [e]
  · rw [e1, e2]; rfl

theorem insertBefore_map {α β : Type} (g : α → β) (q : α → Bool) (q' : β → Bool) (x : α)
    (L : List α) (h : ∀ c ∈ L, q c = q' (g c)) :
    (insertBefore q x L).map g = insertBefore q' (g x) (L.map g) := by
  induction L with
  | nil => rfl
  | cons y L ih =>
    simp only [insertBefore, List.map_cons]
    rw [← h y (by simp)]
    split
    · simp
    · rw [List.map_cons, ih (fun c hc => h c (List.mem_cons_of_mem _ hc))]

theorem insertBefore_head {α : Type} (q : α → Bool) (x : α) (L : List α) :
    (insertBefore q x L).head? =
      match L with
      | [] => some x
      | y :: _ => if q y then some x else some y := by
  cases L with
  | nil => rfl
  | cons y L => simp only [insertBefore]; split <;> simp_all

section

variable {C : Ctx} {s : State} {G : Gh} {A : Abs}

theorem prioOf_eq (h : Inv C s G A) {i : Nat} {n : Name} {v : Int}
    (hi : (Tools.np s.tools.store)[i]? = some (n, v)) : A.prioOf n = v := by
  have := (h.prio n v).2 (List.mem_of_getElem? hi)
  simp [Abs.prioOf, this]

theorem np_at (h : Inv C s G A) {b t u} (hb : btu s.binds b = some (t, u)) :
    ∃ n v, (Tools.np s.tools.store)[t]? = some (n, v) := by
  have := h.bind.okt hb
  have hl : t < (Tools.np s.tools.store).length := by simpa [Tools.np] using this
  exact ⟨_, _, List.getElem?_eq_getElem hl⟩

theorem prB_eq (h : Inv C s G A) {b t u} (hb : btu s.binds b = some (t, u)) :
    prB s.binds (Tools.np s.tools.store) b =
      A.prioOf (frameOf s.binds (Tools.np s.tools.store) b).tool := by
  obtain ⟨n, v, hn⟩ := np_at h hb
  simp only [prB, hb, frameOf, hn, Option.map_some, Option.getD_some, prioOf_eq h hn]

end

/-- The invariant after putting a pending binding on its chain and (possibly) resolving the
function. -/
theorem inv_after {C : Ctx} {s1 : State} {G1 : Gh} {A1 : Abs} {b t u} {p : Int} {tool : Name}
    {r : RWO} {ch2 : Name → List BId} {binds2 binds3 : List IBinding} {ft2 : HTable Name BId}
    {tl : HTable Addr Nat} {libs3 : List LibRec} {lm3 : Lib → Option Nat}
    {vd3 : Option (Option Addr)} {nft : HTable Name BId} {nf3 : Name → Option BId}
    {real3 : Name → Option Addr}
    (h : Inv C s1 G1 A1) (hbu : btu s1.binds b = some (t, u))
    (hpp : ∃ p', (Tools.np s1.tools.store)[t]? = some (tool, p'))
    (hP : Pushed C.hon C.P s1 { s1 with binds := binds2, funTab := ft2 } b u p r G1.ch ch2 G1.pend
      G1.real)
    (htu : btu binds3 = btu binds2) (hnx : bnx binds3 = bnx binds2)
    (hlen : binds3.length = binds2.length)
    (hL : LibInv C.U G1.seen tl libs3 lm3) (hext : RecExt s1.libs G1.lm libs3 lm3)
    (hvd : VdOk C.env C.v vd3 s1.linkMap)
    (hnf : TabMap strhash nft nf3) (hnfm : ∀ {f c}, nf3 f = some c → c ∈ ch2 f)
    (hhon : C.hon → Hon C.P binds3 s1.handles ch2 (fun c => G1.pend c ∧ c ≠ b) real3)
    (hnfr : C.hon → ∀ f, (nf3 f).isSome ↔ (ch2 f ≠ [] ∧ real3 f = none))
    (hreal : C.hon → ∀ f, (A1.push tool p u).1.real f = real3 f) :
    Inv C { s1 with
        binds := binds3
        funTab := ft2
        libTab := tl
        libs := libs3
        vdso := vd3
        notFound := nft }
      { G1 with
        ch := ch2
        real := real3
        nf := nf3
        lm := lm3
        pend := fun c => G1.pend c ∧ c ≠ b
        dirty := fun f => G1.dirty f ∨ (r.binding = true ∧ f = u.name) }
      (A1.push tool p u).1 := by
  have hI := hP.inv
  have htu2 : btu binds2 = btu s1.binds := hP.tu
  have hbwr : bwr binds3 = bwr s1.binds := by funext c; simp [bwr, htu, htu2]
  have hpushp : (A1.push tool p u).1.prio = A1.prio := by
    unfold Abs.push; split <;> rfl
  have hpushl : (A1.push tool p u).1.libs = A1.libs := by
    unfold Abs.push; split <;> rfl
  have hpushv : (A1.push tool p u).1.vdso = A1.vdso := by
    unfold Abs.push; split <;> rfl
  have hpushm : (A1.push tool p u).1.mainWrapped = A1.mainWrapped := by
    unfold Abs.push; split <;> rfl
  have hpushi : (A1.push tool p u).1.inited = A1.inited := by
    unfold Abs.push; split <;> rfl
  have hheads : ∀ f, (r.binding = true ∧ f = u.name) ∨ (ch2 f).head? = (G1.ch f).head? := by
    intro f
    by_cases e : f = u.name
    · subst e
      by_cases hbind : r.binding = true
      · exact Or.inl ⟨hbind, rfl⟩
      · right
        have hnb : (ch2 u.name).head? ≠ some b := fun hh => hbind (hP.bind.2 hh)
        rcases hP.chs with hc | ⟨-, hc, -⟩
        · rw [hc, upd_self] at hnb ⊢
          rw [insertBefore_head] at hnb ⊢
          cases hL : G1.ch u.name with
          | nil => rw [hL] at hnb; simp at hnb
          | cons y L =>
            rw [hL] at hnb
            simp only at hnb ⊢
            split at hnb
            · simp at hnb
            · rw [if_neg (by assumption)]; rfl
        · rw [hc]
    · right
      rcases hP.chs with hc | ⟨-, hc, -⟩
      · rw [hc, upd_ne _ _ e]
      · rw [hc]
  refine
    { tools := h.tools
      bind := ?_
      fn := hP.fn
      nf := hnf
      nfm := hnfm
      lib := hL
      wr := h.wr.ext hext
      objs := h.objs
      nd := h.nd
      placed := h.placed
      vd := hvd
      hon := hhon
      nfr := hnfr
      fresh := ?_
      onch := ?_
      slots := ?_
      prio := by rw [hpushp]; exact h.prio
      stack := ?_
      real := hreal
      libs := by rw [hpushl]; exact h.libs
      vdso := by rw [hpushv]; exact h.vdso
      mainW := by rw [hpushm]; exact h.mainW
      init := h.init
      init' := by rw [hpushi]; exact h.init' }
  · refine ⟨fun f => ?_, fun {f c} hc => ?_, fun {c t u} hc => ?_, fun {c t u} hc => ?_,
      fun {c} hc => ?_, fun {c} hc => ?_, fun {c f} hc => ?_⟩
    · show Seg (bnx binds3) _ _ _
      rw [hnx]; exact hI.chain f
    · show ∃ t u, btu binds3 c = some (t, u) ∧ u.name = f
      rw [htu]; exact hI.named hc
    · replace hc : btu binds3 c = some (t, u) := hc
      rw [htu] at hc; exact hI.okt hc
    · replace hc : btu binds3 c = some (t, u) := hc
      rw [htu] at hc
      show ∃ b', s1.handles u.handle = some b' ∧ b' < binds3.length
      rw [hlen]; exact hI.okh hc
    · show c < binds3.length
      rw [hlen]; exact hI.pendb hc
    · show bnx binds3 c = some none
      rw [hnx]; exact hI.pendn hc
    · exact hI.pendc hc
  · intro hh hm c tt uu hc
    replace hc : btu binds3 c = some (tt, uu) := hc
    rw [htu, htu2] at hc
    exact h.fresh hh hm hc
  · intro hh c hc
    replace hc : c < binds3.length := hc
    have hlen1 : binds2.length = s1.binds.length := hP.len
    rw [hlen, hlen1] at hc
    rcases hP.chs with hcc | ⟨hcc, -⟩
    · show (G1.pend c ∧ c ≠ b) ∨ ∃ f, c ∈ ch2 f
      by_cases e : c = b
      · right
        refine ⟨u.name, ?_⟩
        rw [hcc, upd_self, insertBefore_mem]
        exact Or.inr e
      · rcases h.onch hh c hc with hx | ⟨f, hf⟩
        · exact Or.inl ⟨hx, e⟩
        · right
          refine ⟨f, ?_⟩
          rw [hcc]
          by_cases e' : f = u.name
          · rw [e', upd_self, insertBefore_mem]; rw [e'] at hf; exact Or.inl hf
          · rw [upd_ne _ _ e']; exact hf
    · exact absurd hh hcc
  · intro hsl
    have hS := h.slots hsl
    refine ⟨hS.all, hS.cons, ?_, ?_⟩
    · intro l
      show (genAt libs3 lm3 l).toNat ≤ s1.gen.toNat
      rw [genAt_ext hext]; exact hS.gens l
    · intro l hl hg q hq hd c hc
      show bwr binds3 c = some (s1.mem (l.addr + q.1))
      rw [hbwr]
      simp only [not_or] at hd
      rcases hheads q.2 with hx | hx
      · exact absurd hx hd.2
      · exact hS.slot l hl hg q hq hd.1 c (by rw [← hx]; exact hc)
  · intro hh f
    have hfr : frameOf binds3 (Tools.np s1.tools.store) =
        frameOf s1.binds (Tools.np s1.tools.store) := by
      funext c; simp only [frameOf, htu, htu2]
    show (A1.push tool p u).1.stack f = (ch2 f).map (frameOf binds3 (Tools.np s1.tools.store))
    rw [hfr]
    have hst := h.stack hh
    obtain ⟨p', hpp⟩ := hpp
    have hfb : frameOf s1.binds (Tools.np s1.tools.store) b = ⟨tool, u.wrapper, u.handle⟩ := by
      simp [frameOf, hbu, hpp]
    rcases hP.chs with hc | ⟨hc, -⟩
    · by_cases e : f = u.name
      · subst e
        rw [hc, upd_self]
        have hmap : (insertBefore
            (fun c => decide (prB s1.binds (Tools.np s1.tools.store) c < p)) b (G1.ch u.name)).map
              (frameOf s1.binds (Tools.np s1.tools.store)) =
            insertBefore (fun g => decide (A1.prioOf g.tool < p)) ⟨tool, u.wrapper, u.handle⟩
              (A1.stack u.name) := by
          rw [insertBefore_map (q' := fun g => decide (A1.prioOf g.tool < p)), hst, hfb]
          intro c hcm
          obtain ⟨tc, uc, hcu, -⟩ := h.bind.named hcm
          simp only [prB_eq h hcu]
        rw [hmap]
        unfold Abs.push
        cases hA : A1.stack u.name with
        | nil => simp [insertBefore]
        | cons g gs => simp
      · rw [hc, upd_ne _ _ e, ← hst]
        unfold Abs.push
        cases hA : A1.stack u.name with
        | nil => simp [upd_ne _ _ e]
        | cons g gs => simp [upd_ne _ _ e]
    · exact absurd hh hc

end Gotcha
