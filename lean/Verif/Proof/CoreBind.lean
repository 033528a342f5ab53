import Verif.Proof.CoreLib
import Verif.Proof.Seg
import Verif.Proof.Tool
/-
The stacks of wrappers: linked lists of internal bindings.
-/
namespace Gotcha
open HTable
open Spec (exportsAt firstDef insertBefore Frame)

/-- `next_binding` of a binding. -/
def bnx (binds : List IBinding) (b : BId) : Option (Option BId) := (binds[b]?).map (·.next)
/-- Tool and user binding of a binding (never change). -/
def btu (binds : List IBinding) (b : BId) : Option (Nat × UBinding) :=
  (binds[b]?).map (fun x => (x.tool, x.user))
/-- `wrappee_pointer` of a binding. -/
def bwp (binds : List IBinding) (b : BId) : Option (Option Addr) := (binds[b]?).map (·.wrappee)

section modify
variable {binds : List IBinding} {c b : BId} {v : Option Addr} {n : Option BId}

theorem length_modW : (binds.modify c (fun x => { x with wrappee := v })).length = binds.length := by
  simp
theorem length_modN : (binds.modify c (fun x => { x with next := n })).length = binds.length := by
  simp

theorem bnx_modW : bnx (binds.modify c (fun x => { x with wrappee := v })) = bnx binds := by
  funext i
  simp only [bnx, List.getElem?_modify]
  by_cases h : c = i
  · subst h; cases binds[c]? <;> simp
  · simp [h]

theorem btu_modW : btu (binds.modify c (fun x => { x with wrappee := v })) = btu binds := by
  funext i
  simp only [btu, List.getElem?_modify]
  by_cases h : c = i
  · subst h; cases binds[c]? <;> simp
  · simp [h]

theorem btu_modN : btu (binds.modify c (fun x => { x with next := n })) = btu binds := by
  funext i
  simp only [btu, List.getElem?_modify]
  by_cases h : c = i
  · subst h; cases binds[c]? <;> simp
  · simp [h]

theorem bwp_modN : bwp (binds.modify c (fun x => { x with next := n })) = bwp binds := by
  funext i
  simp only [bwp, List.getElem?_modify]
  by_cases h : c = i
  · subst h; cases binds[c]? <;> simp
  · simp [h]

theorem bnx_modN (h : c < binds.length) :
    bnx (binds.modify c (fun x => { x with next := n })) = upd (bnx binds) c (some n) := by
  funext i
  simp only [bnx, List.getElem?_modify, upd]
  by_cases e : c = i
  · subst e; simp [List.getElem?_eq_getElem h]
  · simp [e, Ne.symm e]

theorem bwp_modW (h : c < binds.length) :
    bwp (binds.modify c (fun x => { x with wrappee := v })) = upd (bwp binds) c (some v) := by
  funext i
  simp only [bwp, List.getElem?_modify, upd]
  by_cases e : c = i
  · subst e; simp [List.getElem?_eq_getElem h]
  · simp [e, Ne.symm e]

end modify

theorem btu_some {binds : List IBinding} {b : BId} {x : IBinding} (h : binds[b]? = some x) :
    btu binds b = some (x.tool, x.user) := by simp [btu, h]

theorem btu_get {binds : List IBinding} {b : BId} {t u} (h : btu binds b = some (t, u)) :
    ∃ x, binds[b]? = some x ∧ x.tool = t ∧ x.user = u := by
  unfold btu at h
  cases hx : binds[b]? with
  | none => simp [hx] at h
  | some x => simp [hx] at h; exact ⟨x, rfl, h.1, h.2⟩

theorem btu_lt {binds : List IBinding} {b : BId} {y} (h : btu binds b = some y) :
    b < binds.length := by
  obtain ⟨t, u⟩ := y
  obtain ⟨x, hx, -⟩ := btu_get h
  exact (List.getElem?_eq_some_iff.1 hx).1

theorem btu_of_lt {binds : List IBinding} {b : BId} (h : b < binds.length) :
    ∃ t u, btu binds b = some (t, u) := by
  exact ⟨_, _, btu_some (List.getElem?_eq_getElem h)⟩

/-! ### the chains -/

structure BindInv (binds : List IBinding) (handles : HAddr → Option BId) (ntools : Nat)
    (ch : Name → List BId) (pend : BId → Prop) : Prop where
  chain : ∀ f, Seg (bnx binds) (ch f).head? (ch f) none
  named : ∀ {f b}, b ∈ ch f → ∃ t u, btu binds b = some (t, u) ∧ u.name = f
  okt : ∀ {b t u}, btu binds b = some (t, u) → t < ntools
  okh : ∀ {b t u}, btu binds b = some (t, u) → ∃ b', handles u.handle = some b' ∧ b' < binds.length
  pendb : ∀ {b}, pend b → b < binds.length
  pendn : ∀ {b}, pend b → bnx binds b = some none
  pendc : ∀ {b f}, pend b → b ∉ ch f

/-- The value the wrappee field of the element in front of `L` must have. -/
def nextVal (wr : BId → Option Addr) : List BId → Option Addr → Option Addr
  | [], r => r
  | c :: _, _ => wr c

/-- Every element's wrappee is the wrapper of the next one, the last one's is `r`. -/
def WChain (wr : BId → Option Addr) (wp : BId → Option (Option Addr)) :
    List BId → Option Addr → Prop
  | [], _ => True
  | b :: L, r => wp b = some (nextVal wr L r) ∧ WChain wr wp L r

/-- Wrapper of a binding. -/
def bwr (binds : List IBinding) (b : BId) : Option Addr := (btu binds b).map (·.2.wrapper)

/-- What holds in addition when every binding has its own handle variable, read by its wrapper. -/
structure Hon (P : Addr → Option HAddr) (binds : List IBinding) (handles : HAddr → Option BId)
    (ch : Name → List BId) (pend : BId → Prop) (real : Name → Option Addr) : Prop where
  own : ∀ {b t u}, btu binds b = some (t, u) → handles u.handle = some b
  prog : ∀ {b t u}, btu binds b = some (t, u) → P u.wrapper = some u.handle
  wch : ∀ f, WChain (bwr binds) (bwp binds) (ch f) (real f)
  pend : ∀ {b}, pend b → bwp binds b = some none

theorem WChain.congr {wr wp wr' wp'} {L : List BId} {r} (h1 : ∀ b ∈ L, wr' b = wr b)
    (h2 : ∀ b ∈ L, wp' b = wp b) (h : WChain wr wp L r) : WChain wr' wp' L r := by
  induction L with
  | nil => trivial
  | cons b L ih =>
    refine ⟨?_, ih (fun c hc => h1 c (List.mem_cons_of_mem _ hc))
      (fun c hc => h2 c (List.mem_cons_of_mem _ hc)) h.2⟩
    rw [h2 b (by simp), h.1]
    cases L with
    | nil => rfl
    | cons c L => simp only [nextVal]; rw [h1 c (by simp)]

theorem WChain.insertAfter {wr wp} {A B : List BId} {pos b : BId} {r}
    (hnd : (A ++ pos :: B).Nodup) (hb : b ∉ A ++ pos :: B)
    (h : WChain wr wp (A ++ pos :: B) r) :
    WChain wr (upd (upd wp b (wp pos)) pos (some (wr b))) (A ++ pos :: b :: B) r := by
  induction A with
  | nil =>
    simp only [List.nil_append] at *
    have hne : b ≠ pos := fun e => hb (by rw [e]; simp)
    refine ⟨by simp [nextVal], ?_, ?_⟩
    · rw [upd_ne _ _ hne, upd_self]; exact h.1
    · refine WChain.congr (wr := wr) (wp := wp) (fun _ _ => rfl) ?_ h.2
      intro c hc
      rw [upd_ne _ _ (fun e => ?_), upd_ne _ _ (fun e => hb (by rw [← e]; exact List.mem_cons_of_mem _ hc))]
      rw [List.nodup_cons] at hnd
      exact hnd.1 (e ▸ hc)
  | cons a A ih =>
    simp only [List.cons_append] at *
    rw [List.nodup_cons] at hnd
    refine ⟨?_, ih hnd.2 (fun hc => hb (List.mem_cons_of_mem _ hc)) h.2⟩
    have h1 : a ≠ pos := fun e => hnd.1 (by rw [e]; simp)
    have h2 : a ≠ b := fun e => hb (by rw [e]; simp)
    rw [upd_ne _ _ h1, upd_ne _ _ h2, h.1]
    cases A <;> rfl

theorem WChain.insertHead {wr wp} {L : List BId} {hd b : BId} {r} (hb : b ∉ hd :: L)
    (h : WChain wr wp (hd :: L) r) :
    WChain wr (upd wp b (some (wr hd))) (b :: hd :: L) r := by
  refine ⟨by simp [nextVal], ?_⟩
  refine WChain.congr (wr := wr) (wp := wp) (fun _ _ => rfl) ?_ h
  intro c hc
  have hne : c ≠ b := fun e => hb (by rw [← e]; exact hc)
  rw [upd_ne _ _ hne]

/-- The last element's wrappee is the real function. -/
theorem WChain.last {wr wp} {A : List BId} {b : BId} {r} (h : WChain wr wp (A ++ [b]) r) :
    wp b = some r := by
  induction A with
  | nil => exact h.1
  | cons a A ih => exact ih h.2

theorem WChain.setLast {wr wp} {A : List BId} {b : BId} {r r'} (hnd : (A ++ [b]).Nodup)
    (h : WChain wr wp (A ++ [b]) r) : WChain wr (upd wp b (some r')) (A ++ [b]) r' := by
  induction A with
  | nil => exact ⟨by simp [nextVal], trivial⟩
  | cons a A ih =>
    simp only [List.cons_append] at *
    rw [List.nodup_cons] at hnd
    refine ⟨?_, ih hnd.2 h.2⟩
    rw [upd_ne _ _ (fun e => hnd.1 (by rw [e]; simp)), h.1]
    cases A <;> rfl

/-! ### finding the position -/

/-- Priority of the tool of a binding, given (name, priority) of all tools. -/
def prB (binds : List IBinding) (np : List (Name × Int)) (b : BId) : Int :=
  match btu binds b with
  | none => 0
  | some (t, _) => ((np[t]?).map (·.2)).getD 0

theorem bindPriority_ok {s : State} {b t u} (h : btu s.binds b = some (t, u))
    (ht : t < s.tools.store.length) :
    s.bindPriority b = .ok (prB s.binds (Tools.np s.tools.store) b) := by
  obtain ⟨x, hx, rfl, rfl⟩ := btu_get h
  have hp := List.getElem?_eq_getElem ht
  simp only [State.bindPriority, State.bind, hx, bind, Except.bind, Tools.priorityOf, hp, prB, h,
    Tools.np, List.getElem?_map, Option.map_some, Option.getD_some]

theorem findPos_spec {s : State} {p : Int} {w : Addr} {b : BId} {pr : BId → Int} (L : List BId) :
    ∀ (cur : BId) (fuel : Nat), Seg (bnx s.binds) (some cur) (cur :: L) none → L.length < fuel →
      (∀ c ∈ cur :: L, s.bindPriority c = .ok (pr c)) →
      (∃ A pos B, findPos s p w fuel cur = .ok (some pos) ∧ cur :: L = A ++ pos :: B ∧
        cur :: insertBefore (fun c => decide (pr c < p)) b L = A ++ pos :: b :: B) ∨
      (findPos s p w fuel cur = .ok none ∧ ∃ c ∈ cur :: L, bwr s.binds c = some w) := by
  induction L with
  | nil =>
    intro cur fuel hs hf hp
    obtain ⟨fuel, rfl⟩ : ∃ k, fuel = k + 1 := ⟨fuel - 1, by simp at hf; omega⟩
    obtain ⟨-, n, hn, hs2⟩ := hs
    simp only [Seg] at hs2
    subst hs2
    unfold bnx at hn
    cases hx : s.binds[cur]? with
    | none => simp [hx] at hn
    | some x =>
      simp [hx] at hn
      left
      refine ⟨[], cur, [], ?_, rfl, rfl⟩
      simp only [findPos, State.bind, hx, bind, Except.bind, hn]
  | cons m L ih =>
    intro cur fuel hs hf hp
    obtain ⟨fuel, rfl⟩ : ∃ k, fuel = k + 1 := ⟨fuel - 1, by simp at hf; omega⟩
    obtain ⟨-, n, hn, hs2⟩ := hs
    have hs2' := hs2
    obtain ⟨rfl, -⟩ := hs2
    unfold bnx at hn
    cases hx : s.binds[cur]? with
    | none => simp [hx] at hn
    | some x =>
      simp [hx] at hn
      have hpm := hp m (by simp)
      by_cases hlt : pr m < p
      · left
        refine ⟨[], cur, m :: L, ?_, rfl, ?_⟩
        · simp only [findPos, State.bind, hx, bind, Except.bind, hn, hpm, hlt, if_true]
        · simp [insertBefore, hlt]
      · by_cases hw : x.user.wrapper = w
        · right
          refine ⟨?_, cur, by simp, by simp [bwr, btu, hx, hw]⟩
          simp only [findPos, State.bind, hx, bind, Except.bind, hn, hpm, hlt, if_false, hw, if_true]
        · have hstep : findPos s p w (fuel + 1) cur = findPos s p w fuel m := by
            simp only [findPos, State.bind, hx, bind, Except.bind, hn, hpm, hlt, if_false, hw]
          rw [hstep]
          rcases ih m fuel hs2' (by simp at hf; omega)
            (fun c hc => hp c (List.mem_cons_of_mem _ hc)) with ⟨A, pos, B, h1, h2, h3⟩ | ⟨h1, c, hc, h2⟩
          · left
            refine ⟨cur :: A, pos, B, h1, by rw [h2]; rfl, ?_⟩
            simp only [insertBefore, hlt, decide_false, Bool.false_eq_true, if_false, h3,
              List.cons_append]
          · right
            exact ⟨h1, c, List.mem_cons_of_mem _ hc, h2⟩

/-! ### the order rewrite -/

/-- `rewriteOrders` after the block for "main". -/
def rwTail (s : State) (b : BId) (xb : UBinding) (p : Int) : Except Fault (State × RWO) := do
  match ← nameLookup s.funTab xb.name with
  | none =>
    let t ← s.funTab.addto xb.name b (strhash xb.name)
    .ok ({ s with funTab := t }, ⟨true, true⟩)
  | some head =>
    let hp ← s.bindPriority head
    if hp < p then
      let s ← s.insertAtHead b head
      .ok (s, ⟨false, true⟩)
    else
      match ← findPos s p xb.wrapper (s.binds.length + 1) head with
      | none => .ok (s, ⟨false, false⟩)
      | some pos =>
        let s ← s.insertAfter b pos
        .ok (s, ⟨false, false⟩)

theorem rewriteOrders_eq (onMain : State → Except Fault State) {s : State} {b t u}
    (h : btu s.binds b = some (t, u)) (ht : t < s.tools.store.length) :
    rewriteOrders onMain s b =
      (if u.name = nm "main" then onMain s else .ok s) >>= fun s' =>
        rwTail s' b u (prB s.binds (Tools.np s.tools.store) b) := by
  obtain ⟨x, hx, rfl, rfl⟩ := btu_get h
  unfold rewriteOrders
  simp only [bindPriority_ok h ht, State.bind, hx]
  by_cases hn : x.user.name = nm "main"
  · simp only [bind, Except.bind, if_pos hn]; rfl
  · simp only [bind, Except.bind, if_neg hn]; rfl

theorem chain_len {binds : List IBinding} {handles nt ch pend}
    (h : BindInv binds handles nt ch pend) (f : Name) : (ch f).length ≤ binds.length := by
  have hnd := (h.chain f).nodup
  have : ch f ⊆ List.range binds.length := by
    intro b hb
    obtain ⟨t, u, hbu, -⟩ := h.named hb
    exact List.mem_range.2 (btu_lt hbu)
  simpa using (List.Nodup.subperm hnd this).length_le

theorem BindInv.disj {binds : List IBinding} {handles nt ch pend}
    (h : BindInv binds handles nt ch pend) {f g b} (h1 : b ∈ ch f) (h2 : b ∈ ch g) : f = g := by
  obtain ⟨t, u, e, rfl⟩ := h.named h1
  obtain ⟨t', u', e', rfl⟩ := h.named h2
  rw [e] at e'; cases e'; rfl

/-- A pending binding leaves the waiting set by being put on a chain. -/
theorem BindInv.push {binds binds' : List IBinding} {handles nt ch} {pend : BId → Prop}
    (h : BindInv binds handles nt ch pend) {b t u L'} (hbu : btu binds b = some (t, u))
    (hb : pend b)
    (htu : btu binds' = btu binds) (hlen : binds'.length = binds.length)
    (hnx : ∀ c, c ∉ ch u.name → c ≠ b → bnx binds' c = bnx binds c)
    (hmem : ∀ c ∈ L', c ∈ ch u.name ∨ c = b)
    (hseg : Seg (bnx binds') L'.head? L' none) :
    BindInv binds' handles nt (upd ch u.name L') (fun c => pend c ∧ c ≠ b) := by
  have hb' : ∀ f, b ∉ ch f := fun f => h.pendc hb
  refine ⟨?_, ?_, ?_, ?_, ?_, ?_, ?_⟩
  · intro f
    by_cases e : f = u.name
    · subst e; rw [upd_self]; exact hseg
    · rw [upd_ne _ _ e]
      refine Seg.congr ?_ (h.chain f)
      intro c hc
      exact hnx c (fun hc' => e (h.disj hc hc')) (fun e' => hb' f (e' ▸ hc))
  · intro f c hc
    rw [htu]
    by_cases e : f = u.name
    · subst e
      rw [upd_self] at hc
      rcases hmem c hc with h1 | rfl
      · exact h.named h1
      · exact ⟨t, u, hbu, rfl⟩
    · rw [upd_ne _ _ e] at hc; exact h.named hc
  · intro c t u hc; rw [htu] at hc; exact h.okt hc
  · intro c t u hc; rw [htu] at hc; rw [hlen]; exact h.okh hc
  · intro c hc; rw [hlen]; exact h.pendb hc.1
  · intro c hc
    rw [hnx c (h.pendc hc.1) hc.2]; exact h.pendn hc.1
  · intro c f hc hcf
    by_cases e : f = u.name
    · subst e
      rw [upd_self] at hcf
      rcases hmem c hcf with h1 | h1
      · exact h.pendc hc.1 h1
      · exact hc.2 h1
    · rw [upd_ne _ _ e] at hcf; exact h.pendc hc.1 hcf

/-- Result of putting a binding on its stack. -/
structure Pushed (hon : Prop) (P : Addr → Option HAddr) (s s' : State) (b : BId) (u : UBinding)
    (p : Int) (r : RWO) (ch ch' : Name → List BId) (pend : BId → Prop)
    (real : Name → Option Addr) : Prop where
  inv : BindInv s'.binds s'.handles s'.tools.store.length ch' (fun c => pend c ∧ c ≠ b)
  fn : TabMap strhash s'.funTab (fun f => (ch' f).head?)
  tu : btu s'.binds = btu s.binds
  len : s'.binds.length = s.binds.length
  chs : ch' = upd ch u.name (insertBefore
      (fun c => decide (prB s.binds (Tools.np s.tools.store) c < p)) b (ch u.name)) ∨
    (¬ hon ∧ ch' = ch ∧ ch u.name ≠ [] ∧ r.binding = false ∧ ∀ hd, (ch u.name).head? = some hd →
      p ≤ prB s.binds (Tools.np s.tools.store) hd)
  look : r.lookup = true ↔ ch u.name = []
  bind : r.binding = true ↔ (ch' u.name).head? = some b
  hon : hon → Hon P s.binds s.handles ch pend real →
    Hon P s'.binds s'.handles ch' (fun c => pend c ∧ c ≠ b)
      (if ch u.name = [] then upd real u.name none else real)

theorem insertBefore_split {α : Type} (q : α → Bool) (x : α) (L : List α) :
    ∃ A B, L = A ++ B ∧ insertBefore q x L = A ++ x :: B ∧ (∀ y ∈ A, q y = false) ∧
      (∀ y, B.head? = some y → q y = true) := by
  induction L with
  | nil => exact ⟨[], [], rfl, rfl, by simp, by simp⟩
  | cons y L ih =>
    by_cases hq : q y = true
    · exact ⟨[], y :: L, rfl, by simp [insertBefore, hq], by simp, by simp [hq]⟩
    · obtain ⟨A, B, h1, h2, h3, h4⟩ := ih
      refine ⟨y :: A, B, by rw [h1]; rfl, by simp [insertBefore, hq, h2], ?_, h4⟩
      intro z hz
      rcases List.mem_cons.1 hz with rfl | hz
      · simpa using hq
      · exact h3 z hz

theorem insertBefore_mem {α : Type} (q : α → Bool) (x : α) (L : List α) (y : α) :
    y ∈ insertBefore q x L ↔ y ∈ L ∨ y = x := by
  obtain ⟨A, B, h1, h2, -, -⟩ := insertBefore_split q x L
  rw [h2, h1]
  simp only [List.mem_append, List.mem_cons]
  tauto

variable {hon : Prop} {P : Addr → Option HAddr}

theorem rwTail_spec {s : State} {b t u ch real} {pend : BId → Prop} (p : Int)
    (hI : BindInv s.binds s.handles s.tools.store.length ch pend)
    (hF : TabMap strhash s.funTab (fun f => (ch f).head?))
    (hbu : btu s.binds b = some (t, u)) (hb : pend b)
    (hH : hon → Hon P s.binds s.handles ch pend real) :
    ∃ binds' ft' r ch', rwTail s b u p = .ok ({ s with binds := binds', funTab := ft' }, r) ∧
      Pushed hon P s { s with binds := binds', funTab := ft' } b u p r ch ch' pend real := by
  have hblt := btu_lt hbu
  unfold rwTail
  rw [nameLookup_tab hF]
  have hupd : ∀ L : List BId, (fun f => (upd ch u.name L f).head?) =
      upd (fun f => (ch f).head?) u.name L.head? := by
    intro L; funext f; simp only [upd]; split <;> rfl
  cases hc : ch u.name with
  | nil =>
    -- first wrapper of this function
    obtain ⟨ft', he, hF'⟩ := addto_tab hF u.name b (by simp [hc])
    simp only [bind, Except.bind, List.head?_nil, he]
    refine ⟨s.binds, ft', ⟨true, true⟩, upd ch u.name [b], rfl, ?_⟩
    have hpush : BindInv s.binds s.handles s.tools.store.length (upd ch u.name [b])
        (fun c => pend c ∧ c ≠ b) := by
      refine hI.push hbu hb rfl rfl (fun _ _ _ => rfl) (by simp) ?_
      exact ⟨rfl, none, hI.pendn hb, rfl⟩
    refine ⟨hpush, by rw [hupd]; exact hF', rfl, rfl, Or.inl ?_, by simp [hc], by simp, ?_⟩
    · simp [hc, insertBefore]
    · intro hh hHon
      rw [if_pos hc]
      refine ⟨hHon.own, hHon.prog, ?_, fun hc => hHon.pend hc.1⟩
      intro f
      by_cases e : f = u.name
      · subst e
        rw [upd_self, upd_self]
        exact ⟨hHon.pend hb, trivial⟩
      · rw [upd_ne _ _ e, upd_ne _ _ e]; exact hHon.wch f
  | cons hd L =>
    have hmem : ∀ c ∈ ch u.name, ∃ t u, btu s.binds c = some (t, u) :=
      fun c hcm => by obtain ⟨t, u, h, -⟩ := hI.named hcm; exact ⟨t, u, h⟩
    have hpr : ∀ c ∈ ch u.name,
        s.bindPriority c = .ok (prB s.binds (Tools.np s.tools.store) c) := by
      intro c hcm
      obtain ⟨t, u, h⟩ := hmem c hcm
      exact bindPriority_ok h (hI.okt h)
    have hhd : hd ∈ ch u.name := by rw [hc]; simp
    have hbn : b ∉ ch u.name := hI.pendc hb
    obtain ⟨th, uh, hhu⟩ := hmem hd hhd
    obtain ⟨c1, hc1, hc1l⟩ := hI.okh hbu
    obtain ⟨xb, hxb, rfl, rfl⟩ := btu_get hbu
    obtain ⟨xh, hxh, rfl, rfl⟩ := btu_get hhu
    have hchain := hI.chain xb.user.name
    rw [hc] at hchain
    have hnd := hchain.nodup
    simp only [bind, Except.bind, List.head?_cons, hpr hd hhd]
    by_cases hlt : prB s.binds (Tools.np s.tools.store) hd < p
    · -- in front
      simp only [hlt, if_true, State.insertAtHead, State.bind, hxb, hxh, bind, Except.bind,
        State.setInternal, hc1, length_modN, hc1l]
      obtain ⟨ft1, hr1, hF1⟩ := removefrom_tab hF (k := xb.user.name)
        (eq := fun k => decide (k = xb.user.name)) name_eq
      simp only [hr1]
      obtain ⟨ft', he, hF'⟩ := addto_tab hF1 xb.user.name b (by simp)
      simp only [he]
      refine ⟨_, ft', ⟨false, true⟩, upd ch xb.user.name (b :: hd :: L), rfl, ?_⟩
      set binds' := (s.binds.modify b (fun x => { x with next := some hd })).modify c1
        (fun x => { x with wrappee := some xh.user.wrapper }) with hbd
      have htu : btu binds' = btu s.binds := by rw [hbd, btu_modW, btu_modN]
      have hlen : binds'.length = s.binds.length := by rw [hbd, length_modW, length_modN]
      have hnx : bnx binds' = upd (bnx s.binds) b (some (some hd)) := by
        rw [hbd, bnx_modW, bnx_modN hblt]
      have hpush : BindInv binds' s.handles s.tools.store.length
          (upd ch xb.user.name (b :: hd :: L)) (fun c => pend c ∧ c ≠ b) := by
        refine hI.push hbu hb htu hlen ?_ ?_ ?_
        · intro c _ hcb; rw [hnx, upd_ne _ _ hcb]
        · intro c hcm
          rw [hc]
          rcases List.mem_cons.1 hcm with h | h
          · exact Or.inr h
          · exact Or.inl h
        · refine ⟨rfl, some hd, by rw [hnx, upd_self], ?_⟩
          refine Seg.congr ?_ hchain
          intro c hcm
          rw [hnx, upd_ne _ _ (fun e => hbn (by rw [hc, ← e]; exact hcm))]
      refine ⟨hpush, ?_, htu, hlen, Or.inl ?_, by simp [hc], by simp, ?_⟩
      · rw [hupd]
        have : upd (fun f => (ch f).head?) xb.user.name (some b) =
            upd (upd (fun f => (ch f).head?) xb.user.name none) xb.user.name (some b) := by
          funext f; simp only [upd]; split <;> rfl
        rw [List.head?_cons, this]
        exact hF'
      · simp [hc, insertBefore, hlt]
      · intro hh hHon
        have hc1b : c1 = b := by
          have := hHon.own hbu
          rw [hc1] at this
          simpa using this
        rw [if_neg (by simp [hc])]
        have hwp : bwp binds' = upd (bwp s.binds) b (some (some xh.user.wrapper)) := by
          rw [hbd, bwp_modW (by rw [length_modN]; exact hc1l), bwp_modN, hc1b]
        have hwr : bwr binds' = bwr s.binds := by funext c; simp [bwr, htu]
        refine ⟨fun h => hHon.own (by rw [htu] at h; exact h),
          fun h => hHon.prog (by rw [htu] at h; exact h), ?_, ?_⟩
        · intro f
          by_cases e : f = xb.user.name
          · rw [e, upd_self, hwr, hwp]
            have hw := hHon.wch xb.user.name
            rw [hc] at hw
            have := WChain.insertHead (b := b) (by rw [← hc]; exact hbn) hw
            have hbh : bwr s.binds hd = some xh.user.wrapper := by simp [bwr, hhu]
            rw [hbh] at this
            exact this
          · rw [upd_ne _ _ e, hwr, hwp]
            refine WChain.congr (fun _ _ => rfl) ?_ (hHon.wch f)
            intro c hcm
            rw [upd_ne _ _ (fun e' => hI.pendc hb (f := f) (by rw [← e']; exact hcm))]
        · intro c hcp
          rw [hwp, upd_ne _ _ hcp.2]; exact hHon.pend hcp.1
    · simp only [hlt, if_false]
      rcases findPos_spec (s := s) (p := p) (w := xb.user.wrapper) (b := b)
        (pr := prB s.binds (Tools.np s.tools.store)) L hd (s.binds.length + 1) hchain
        (by have := chain_len hI xb.user.name; rw [hc] at this; simp at this; omega)
        (by rw [← hc]; exact hpr) with ⟨A, pos, B, h1, h2, h3⟩ | ⟨h1, c, hcm, hcw⟩
      · -- behind some element
        have hposm : pos ∈ ch xb.user.name := by rw [hc, h2]; simp
        obtain ⟨tp, up, hpu⟩ := hmem pos hposm
        obtain ⟨c2, hc2, hc2l⟩ := hI.okh hpu
        obtain ⟨xp, hxp, rfl, rfl⟩ := btu_get hpu
        have hposb : pos ≠ b := fun e => hbn (e ▸ hposm)
        have hposl := btu_lt hpu
        -- the state after the two wrappee writes
        set binds2 := (s.binds.modify c1 (fun x => { x with wrappee := xp.wrappee })).modify c2
          (fun x => { x with wrappee := some xb.user.wrapper }) with hb2
        have hlen2 : binds2.length = s.binds.length := by rw [hb2, length_modW, length_modW]
        have hnx2 : bnx binds2 = bnx s.binds := by rw [hb2, bnx_modW, bnx_modW]
        have htu2 : btu binds2 = btu s.binds := by rw [hb2, btu_modW, btu_modW]
        have hpos2 : ∃ x2, binds2[pos]? = some x2 ∧ x2.next = xp.next := by
          have := congrFun hnx2 pos
          simp only [bnx, hxp, Option.map_some] at this
          cases hx : binds2[pos]? with
          | none => simp [hx] at this
          | some x2 => exact ⟨x2, rfl, by simpa [hx] using this⟩
        obtain ⟨x2, hx2, hx2n⟩ := hpos2
        simp only [h1, State.insertAfter, State.bind, hxb, hxp, bind, Except.bind,
          State.setInternal, hc1, hc1l, if_true, hc2, length_modW, hc2l, ← hb2, hx2, hx2n]
        refine ⟨_, s.funTab, ⟨false, false⟩, upd ch xb.user.name (A ++ pos :: b :: B), rfl, ?_⟩
        set binds' := (binds2.modify b (fun x => { x with next := xp.next })).modify pos
          (fun x => { x with next := some b }) with hbd
        have htu : btu binds' = btu s.binds := by rw [hbd, btu_modN, btu_modN, htu2]
        have hlen : binds'.length = s.binds.length := by rw [hbd, length_modN, length_modN, hlen2]
        have hnx : bnx binds' = upd (upd (bnx s.binds) b (some xp.next)) pos (some (some b)) := by
          rw [hbd, bnx_modN (by rw [length_modN, hlen2]; exact hposl),
            bnx_modN (by rw [hlen2]; exact hblt), hnx2]
        have hAne : ∀ c ∈ A, c ≠ pos ∧ c ≠ b := by
          intro c hcA
          refine ⟨?_, fun e => hbn (by rw [hc, h2, ← e]; simp [hcA])⟩
          intro e
          rw [h2] at hnd
          have := (List.nodup_append.1 hnd).2.2 c hcA c (by rw [e]; simp)
          exact this rfl
        have hBne : ∀ c ∈ B, c ≠ pos ∧ c ≠ b := by
          intro c hcB
          refine ⟨?_, fun e => hbn (by rw [hc, h2, ← e]; simp [hcB])⟩
          intro e
          rw [h2] at hnd
          have := (List.nodup_append.1 hnd).2.1
          rw [List.nodup_cons] at this
          exact this.1 (e ▸ hcB)
        have hpush : BindInv binds' s.handles s.tools.store.length
            (upd ch xb.user.name (A ++ pos :: b :: B)) (fun c => pend c ∧ c ≠ b) := by
          refine hI.push hbu hb htu hlen ?_ ?_ ?_
          · intro c hcn hcb
            have hcp : c ≠ pos := fun e => hcn (by rw [e]; exact hposm)
            rw [hnx, upd_ne _ _ hcp, upd_ne _ _ hcb]
          · intro c hcm
            rw [hc, h2]
            simp only [List.mem_append, List.mem_cons] at hcm ⊢
            tauto
          · have hs := hchain
            rw [h2] at hs
            obtain ⟨q, hs1, hs2, n, hn, hs3⟩ := Seg.append.1 hs
            have hn' : n = xp.next := by
              simp only [bnx, hxp, Option.map_some] at hn
              simpa using hn.symm
            have hhead : (A ++ pos :: b :: B).head? = (A ++ pos :: B).head? := by
              cases A <;> rfl
            rw [hhead]
            refine Seg.append.2 ⟨q, Seg.congr ?_ hs1, hs2, some b, ?_, rfl, n, ?_, Seg.congr ?_ hs3⟩
            · intro c hcA
              rw [hnx, upd_ne _ _ (hAne c hcA).1, upd_ne _ _ (hAne c hcA).2]
            · rw [hnx, upd_self]
            · rw [hnx, upd_ne _ _ (Ne.symm hposb), upd_self, hn']
            · intro c hcB
              rw [hnx, upd_ne _ _ (hBne c hcB).1, upd_ne _ _ (hBne c hcB).2]
        refine ⟨hpush, ?_, htu, hlen, Or.inl ?_, by simp [hc], ?_, ?_⟩
        · have : (fun f => (upd ch xb.user.name (A ++ pos :: b :: B) f).head?) =
              fun f => (ch f).head? := by
            funext f
            simp only [upd]
            split
            · rename_i e
              subst e
              rw [hc, h2]
              cases A <;> rfl
            · rfl
          rw [this]; exact hF
        · rw [hc, ← h3]
          simp [insertBefore, hlt]
        · simp only [Bool.false_eq_true, upd_self, false_iff]
          intro e
          have : (A ++ pos :: b :: B).head? = some hd := by
            have := congrArg List.head? h2
            cases A <;> simpa using this.symm
          rw [this] at e
          cases e
          exact hbn hhd
        · intro hh hHon
          have hc1b : c1 = b := by
            have := hHon.own hbu
            rw [hc1] at this
            simpa using this
          have hc2p : c2 = pos := by
            have := hHon.own hpu
            rw [hc2] at this
            simpa using this
          rw [if_neg (by simp [hc])]
          have hwr : bwr binds' = bwr s.binds := by funext c; simp [bwr, htu]
          have hwp : bwp binds' = upd (upd (bwp s.binds) b (bwp s.binds pos)) pos
              (some (bwr s.binds b)) := by
            rw [hbd, bwp_modN, bwp_modN, hb2, bwp_modW (by rw [length_modW]; exact hc2l),
              bwp_modW hc1l, hc1b, hc2p]
            simp [bwp, hxp, bwr, hbu]
          refine ⟨fun h => hHon.own (by rw [htu] at h; exact h),
            fun h => hHon.prog (by rw [htu] at h; exact h), ?_, ?_⟩
          · intro f
            by_cases e : f = xb.user.name
            · rw [e, upd_self, hwr, hwp]
              have hw := hHon.wch xb.user.name
              rw [hc, h2] at hw
              exact WChain.insertAfter (by rw [← h2]; exact hnd) (by rw [← h2, ← hc]; exact hbn) hw
            · rw [upd_ne _ _ e, hwr, hwp]
              refine WChain.congr (fun _ _ => rfl) ?_ (hHon.wch f)
              intro c hcm
              have hcp : c ≠ pos := fun e' => e (hI.disj (by rw [← e']; exact hcm) hposm)
              rw [upd_ne _ _ hcp,
                upd_ne _ _ (fun e' => hI.pendc hb (f := f) (by rw [← e']; exact hcm))]
          · intro c hcp
            rw [hwp, upd_ne _ _ (fun e' => hI.pendc hcp.1 (by rw [e']; exact hposm)),
              upd_ne _ _ hcp.2]
            exact hHon.pend hcp.1
      · -- "already inserted"
        simp only [h1]
        refine ⟨s.binds, s.funTab, ⟨false, false⟩, ch, rfl, ?_⟩
        have hnh : ¬ hon := by
          intro hh
          have hHon := hH hh
          rw [← hc] at hcm
          obtain ⟨tc, uc, hcu⟩ := hmem c hcm
          have hw : uc.wrapper = xb.user.wrapper := by simpa [bwr, hcu] using hcw
          have e1 := hHon.prog hcu
          have e2 := hHon.prog hbu
          rw [hw, e2] at e1
          have e3 := hHon.own hcu
          have e4 := hHon.own hbu
          rw [show uc.handle = xb.user.handle by simpa using e1.symm, e4] at e3
          simp at e3
          exact hbn (e3 ▸ hcm)
        refine ⟨⟨hI.chain, hI.named, hI.okt, hI.okh, fun h => hI.pendb h.1, fun h => hI.pendn h.1,
          fun h => hI.pendc h.1⟩, hF, rfl, rfl, Or.inr ⟨hnh, rfl, by simp [hc], rfl, ?_⟩, by simp [hc],
          ?_, fun hh => absurd hh hnh⟩
        · intro hd' he
          rw [hc] at he
          simp only [List.head?_cons, Option.some.injEq] at he
          rw [← he]; omega
        · simp only [Bool.false_eq_true, false_iff]
          intro e
          exact hbn (List.mem_of_head? e)

end Gotcha
