import Verif.Model.Tool
import Verif.Proof.Seg
import Mathlib.Data.List.Induction
import Mathlib.Data.List.Perm.Subperm
import Mathlib.Tactic.Push
/-
The tool list (src/tool.c) refines a duplicate-free list of tools sorted by priority.
-/
namespace Gotcha.Tools
open Gotcha

def tnx (store : List Tool) (i : Nat) : Option (Option Nat) := (store[i]?).map Tool.next
def np (store : List Tool) : List (Name × Int) := store.map (fun t => (t.name, t.priority))
def npAt (store : List Tool) (i : Nat) : Option (Name × Int) :=
  (store[i]?).map (fun t => (t.name, t.priority))

theorem npAt_eq (store : List Tool) (i : Nat) : npAt store i = (np store)[i]? := by
  simp [npAt, np, List.getElem?_map]

def prio (store : List Tool) (i : Nat) : Int := ((npAt store i).map Prod.snd).getD 0

structure Ok (ts : Tools) (L : List Nat) : Prop where
  linked : Seg (tnx ts.store) ts.head L none
  cover : ∀ i, i ∈ L ↔ i < ts.store.length
  names : (ts.store.map Tool.name).Nodup
  sorted : (L.map (prio ts.store)).Pairwise (· ≤ ·)

theorem Ok.length {ts : Tools} {L : List Nat} (h : Ok ts L) : L.length ≤ ts.store.length := by
  have hn := h.linked.nodup
  have : L ⊆ List.range ts.store.length := by
    intro i hi; rw [List.mem_range]; exact (h.cover i).1 hi
  simpa using (List.Nodup.subperm hn this).length_le

theorem names_inj {store : List Tool} (h : (store.map Tool.name).Nodup) {i j : Nat} {a b : Tool}
    (hi : store[i]? = some a) (hj : store[j]? = some b) (hn : a.name = b.name) : i = j := by
  obtain ⟨hi', hia⟩ := List.getElem?_eq_some_iff.1 hi
  obtain ⟨hj', hjb⟩ := List.getElem?_eq_some_iff.1 hj
  have := (List.nodup_iff_injective_get.1 h)
  have h2 : (store.map Tool.name).get ⟨i, by simpa using hi'⟩ =
      (store.map Tool.name).get ⟨j, by simpa using hj'⟩ := by
    simp [hia, hjb, hn]
  simpa using congrArg Fin.val (this h2)

theorem findLoop_spec {store : List Tool} {name : Name} {L : List Nat} :
    ∀ {fuel p}, Seg (tnx store) p L none → L.length ≤ fuel →
      findLoop store name fuel p =
        .ok (L.find? (fun i => ((npAt store i).map Prod.fst) = some name)) := by
  induction L with
  | nil => intro fuel p hs _; simp only [Seg] at hs; subst hs; cases fuel <;> rfl
  | cons i L ih =>
    intro fuel p hs hf
    obtain ⟨rfl, n, hn, h2⟩ := hs
    cases fuel with
    | zero => simp at hf
    | succ fuel =>
      simp only [tnx, Option.map_eq_some_iff] at hn
      obtain ⟨t, ht, rfl⟩ := hn
      simp only [findLoop, ht, List.find?_cons, npAt, Option.map_some]
      by_cases hc : name = t.name
      · simp [hc]
      · have hc' : ¬ t.name = name := fun h => hc h.symm
        simp only [hc, if_false, Option.some.injEq, hc', decide_false]
        exact ih h2 (by simpa using hf)

theorem getTool_spec {ts : Tools} {L : List Nat} (h : Ok ts L) (name : Name) :
    (∃ i t, getTool ts name = .ok (some i) ∧ ts.store[i]? = some t ∧ t.name = name) ∨
    (getTool ts name = .ok none ∧ name ∉ ts.store.map Tool.name) := by
  unfold getTool
  rw [findLoop_spec h.linked h.length]
  cases hf : L.find? (fun i => ((npAt ts.store i).map Prod.fst) = some name) with
  | some i =>
    left
    have := List.find?_some hf
    simp only [npAt, Option.map_map, decide_eq_true_eq, Option.map_eq_some_iff] at this
    obtain ⟨t, ht, hn⟩ := this
    exact ⟨i, t, rfl, ht, by simpa using hn⟩
  | none =>
    right
    refine ⟨rfl, ?_⟩
    intro hmem
    obtain ⟨t, ht, hn⟩ := List.mem_map.1 hmem
    obtain ⟨i, hi, hit⟩ := List.getElem_of_mem ht
    have := List.find?_eq_none.1 hf i ((h.cover i).2 hi)
    apply this
    simp [npAt, List.getElem?_eq_getElem hi, hit, hn]

theorem getTool_of_mem {ts : Tools} {L : List Nat} (h : Ok ts L) {i : Nat} {t : Tool}
    (ht : ts.store[i]? = some t) : getTool ts t.name = .ok (some i) := by
  rcases getTool_spec h t.name with ⟨j, u, h1, h2, h3⟩ | ⟨_, h2⟩
  · rw [h1, names_inj h.names ht h2 h3.symm]
  · exact absurd (List.mem_map.2 ⟨t, List.mem_of_getElem? ht, rfl⟩) h2

/-! ### reordering -/

theorem tnx_modify_other {store : List Tool} {i j : Nat} {f : Tool → Tool} (h : i ≠ j) :
    tnx (store.modify i f) j = tnx store j := by
  simp [tnx, h]

theorem tnx_modify_self {store : List Tool} {i : Nat} {n : Option Nat} (h : i < store.length) :
    tnx (store.modify i (fun t => { t with next := n })) i = some n := by
  simp [tnx, List.getElem?_eq_getElem h]

theorem np_modify_next {store : List Tool} {i : Nat} {n : Option Nat} :
    np (store.modify i (fun t => { t with next := n })) = np store := by
  apply List.ext_getElem?
  intro j
  simp only [np, List.getElem?_map, List.getElem?_modify]
  by_cases h : i = j
  · subst h; cases store[i]? <;> simp
  · simp [h]

theorem np_length {s s' : List Tool} (h : np s' = np s) : s'.length = s.length := by
  simpa [np] using congrArg List.length h

theorem np_names {s s' : List Tool} (h : np s' = np s) :
    s'.map Tool.name = s.map Tool.name := by
  have := congrArg (List.map Prod.fst) h
  simpa [np, Function.comp_def] using this

theorem np_prio {s s' : List Tool} (h : np s' = np s) : prio s' = prio s := by
  funext i; simp [prio, npAt_eq, h]

theorem prio_eq {store : List Tool} {i : Nat} {t : Tool} (h : store[i]? = some t) :
    prio store i = t.priority := by simp [prio, npAt, h]

theorem getLastD_split (h : Nat) (L : List Nat) : ∃ A, h :: L = A ++ [L.getLastD h] := by
  induction L generalizing h with
  | nil => exact ⟨[], rfl⟩
  | cons a L ih =>
    obtain ⟨A, hA⟩ := ih a
    exact ⟨h :: A, by rw [List.getLastD_cons, List.cons_append, ← hA]⟩

theorem reorderLoop_spec {store : List Tool} {p : Int} {L : List Nat} :
    ∀ {fuel cur n}, tnx store cur = some n → Seg (tnx store) n L none → L.length < fuel →
      ∃ L1 L2, L = L1 ++ L2 ∧ (∀ x ∈ L1, prio store x < p) ∧
        (∀ x, L2.head? = some x → p ≤ prio store x) ∧
        reorderLoop store p fuel cur = .ok (L1.getLastD cur) := by
  induction L with
  | nil =>
    intro fuel cur n hc hs hf
    cases fuel with
    | zero => simp at hf
    | succ fuel =>
      simp only [Seg] at hs; subst hs
      simp only [tnx, Option.map_eq_some_iff] at hc
      obtain ⟨c, hc, hcn⟩ := hc
      exact ⟨[], [], rfl, by simp, by simp, by simp [reorderLoop, hc, hcn]⟩
  | cons i L ih =>
    intro fuel cur n hc hs hf
    cases fuel with
    | zero => simp at hf
    | succ fuel =>
      obtain ⟨rfl, m, hm, h2⟩ := hs
      simp only [tnx, Option.map_eq_some_iff] at hc
      obtain ⟨c, hc, hcn⟩ := hc
      have hm' := hm
      simp only [tnx, Option.map_eq_some_iff] at hm'
      obtain ⟨t, ht, htn⟩ := hm'
      by_cases hlt : t.priority < p
      · obtain ⟨L1, L2, e, ha, hb, hr⟩ := ih (fuel := fuel) hm h2 (by simpa using hf)
        refine ⟨i :: L1, L2, by simp [e], ?_, hb, ?_⟩
        · intro x hx
          rcases List.mem_cons.1 hx with rfl | hx
          · rw [prio_eq ht]; exact hlt
          · exact ha x hx
        · simp only [reorderLoop, hc, hcn, ht, hlt, if_true, hr, List.getLastD_cons]
      · refine ⟨[], i :: L, rfl, by simp, ?_, ?_⟩
        · intro x hx
          simp at hx; subst hx; rw [prio_eq ht]; omega
        · simp [reorderLoop, hc, hcn, ht, hlt]

/-- `reorder_tool` of an unlinked tool inserts it before the first tool of at least its priority. -/
theorem reorder_spec {ts : Tools} {L : List Nat} {i : Nat} {t : Tool}
    (hl : Seg (tnx ts.store) ts.head L none) (hlen : L.length < ts.store.length)
    (hi : ts.store[i]? = some t) (hiL : i ∉ L) :
    ∃ ts' L1 L2, reorder ts i = .ok ts' ∧ L = L1 ++ L2 ∧
      (∀ x ∈ L1, prio ts.store x < t.priority) ∧
      (∀ x, L2.head? = some x → t.priority ≤ prio ts.store x) ∧
      np ts'.store = np ts.store ∧
      Seg (tnx ts'.store) ts'.head (L1 ++ i :: L2) none := by
  have hilen : i < ts.store.length := (List.getElem?_eq_some_iff.1 hi).1
  have front : Seg (tnx (ts.store.modify i (fun t => { t with next := ts.head }))) (some i)
      (i :: L) none := by
    refine ⟨rfl, ts.head, tnx_modify_self hilen, hl.congr ?_⟩
    intro j hj
    exact tnx_modify_other (fun e => hiL (e ▸ hj))
  cases L with
  | nil =>
    simp only [Seg] at hl
    refine ⟨{ store := ts.store.modify i (fun t => { t with next := ts.head }), head := some i },
      [], [], ?_, rfl, by simp, by simp, ?_, ?_⟩
    · simp [reorder, hi, hl]
    · exact np_modify_next
    · simpa using front
  | cons h L =>
    have hl0 := hl
    obtain ⟨hh, n, hn, h2⟩ := hl
    have hn' := hn
    simp only [tnx, Option.map_eq_some_iff] at hn'
    obtain ⟨ht, hht, htn⟩ := hn'
    by_cases hge : ht.priority ≥ t.priority
    · refine ⟨{ store := ts.store.modify i (fun t => { t with next := ts.head }), head := some i },
        [], h :: L, ?_, rfl, by simp, ?_, ?_, ?_⟩
      · simp [reorder, hi, hh, hht, hge]
      · intro x hx; simp at hx; subst hx; rw [prio_eq hht]; exact hge
      · exact np_modify_next
      · simpa using front
    · obtain ⟨L1, L2, e, ha, hb, hr⟩ :=
        reorderLoop_spec (p := t.priority) (fuel := ts.store.length) hn h2 (by simp at hlen; omega)
      -- the node after which the tool is inserted
      obtain ⟨A, hA⟩ := getLastD_split h L1
      generalize hc : L1.getLastD h = c at hA hr
      have hseg : Seg (tnx ts.store) ts.head ((A ++ [c]) ++ L2) none := by
        rw [← hA]; simpa [e] using hl0
      obtain ⟨q, hq1, hq2⟩ := Seg.append.1 hseg
      obtain ⟨r, hr1, hr2⟩ := Seg.append.1 hq1
      obtain ⟨hrc, m, hm, hmq⟩ := hr2
      simp only [Seg] at hmq; subst hmq
      have hm' := hm
      simp only [tnx, Option.map_eq_some_iff] at hm'
      obtain ⟨ct, hct, hctn⟩ := hm'
      have hmemA : ∀ x, x ∈ A ++ [c] ++ L2 → x ≠ i := by
        intro x hx hxi
        apply hiL
        rw [← hxi, e]
        rw [← hA] at hx
        simpa using hx
      have hci : c ≠ i := hmemA c (by simp)
      have hnd : (A ++ [c] ++ L2).Nodup := hseg.nodup
      refine ⟨Tools.mk ((ts.store.modify i (fun t => { t with next := ct.next })).modify c
            (fun t => { t with next := some i })) ts.head, h :: L1, L2, ?_, by simp [e], ?_, hb,
            ?_, ?_⟩
      · simp [reorder, hi, hh, hht, hge, hr, hct]
      · intro x hx
        rcases List.mem_cons.1 hx with rfl | hx
        · rw [prio_eq hht]; omega
        · exact ha x hx
      · show np (List.modify _ _ _) = _
        rw [np_modify_next, np_modify_next]
      · show Seg (tnx (List.modify _ _ _)) ts.head _ none
        rw [hA]
        have hclen : c < ts.store.length := (List.getElem?_eq_some_iff.1 hct).1
        rw [List.append_assoc]
        refine Seg.append.2 ⟨r, hr1.congr ?_, hrc, some i, ?_, rfl, ct.next, ?_, ?_⟩
        · intro j hj
          rw [tnx_modify_other, tnx_modify_other]
          · exact (hmemA j (by simp [hj])).symm
          · intro e2; subst e2
            simp [List.nodup_append] at hnd
            exact (hnd.2.2 c hj).1 rfl
        · exact tnx_modify_self (by simpa using hclen)
        · rw [tnx_modify_other hci, tnx_modify_self hilen]
        · rw [hctn]
          refine hq2.congr ?_
          intro j hj
          rw [tnx_modify_other, tnx_modify_other]
          · exact (hmemA j (by simp [hj])).symm
          · intro e2; subst e2
            simp [List.nodup_append] at hnd
            exact hnd.2.1.1 hj

/-! ### removal -/

theorem removeLoop_spec {store : List Tool} {t : Tool} {i : Nat} (hi : store[i]? = some t)
    (hn : (store.map Tool.name).Nodup) {A B : List Nat} :
    ∀ {fuel cur n}, tnx store cur = some n → Seg (tnx store) n (A ++ i :: B) none →
      i ∉ A → A.length < fuel →
      removeLoop store t fuel cur =
        .ok (store.modify (A.getLastD cur) (fun c => { c with next := t.next })) := by
  induction A with
  | nil =>
    intro fuel cur n hc hs _ hf
    cases fuel with
    | zero => simp at hf
    | succ fuel =>
      obtain ⟨rfl, m, hm, h2⟩ := hs
      simp only [tnx, Option.map_eq_some_iff] at hc
      obtain ⟨c, hc, hcn⟩ := hc
      simp [removeLoop, hc, hcn, hi]
  | cons a A ih =>
    intro fuel cur n hc hs hA hf
    cases fuel with
    | zero => simp at hf
    | succ fuel =>
      obtain ⟨rfl, m, hm, h2⟩ := hs
      simp only [tnx, Option.map_eq_some_iff] at hc
      obtain ⟨c, hc, hcn⟩ := hc
      have hm' := hm
      simp only [tnx, Option.map_eq_some_iff] at hm'
      obtain ⟨u, hu, hun⟩ := hm'
      have hne : u.name ≠ t.name := by
        intro e
        exact hA (by rw [names_inj hn hi hu e.symm]; simp)
      simp only [removeLoop, hc, hcn, hu, hne, if_false, List.getLastD_cons]
      exact ih hm h2 (fun h => hA (List.mem_cons_of_mem _ h)) (by simpa using hf)

/-- `remove_tool_from_list` of a linked tool unlinks exactly that tool. -/
theorem remove_spec {ts : Tools} {A B : List Nat} {i : Nat} {t : Tool}
    (hl : Seg (tnx ts.store) ts.head (A ++ i :: B) none)
    (hn : (ts.store.map Tool.name).Nodup) (hlen : (A ++ i :: B).length ≤ ts.store.length)
    (hi : ts.store[i]? = some t) :
    ∃ ts', remove ts i = .ok ts' ∧ np ts'.store = np ts.store ∧
      Seg (tnx ts'.store) ts'.head (A ++ B) none := by
  have hnd := hl.nodup
  cases A with
  | nil =>
    obtain ⟨hh, m, hm, h2⟩ := hl
    simp only [tnx, hi, Option.map_some, Option.some.injEq] at hm
    subst hm
    exact ⟨{ ts with head := t.next }, by simp [remove, hi, hh], rfl, h2⟩
  | cons h A =>
    have hl0 := hl
    obtain ⟨hh, m, hm, h2⟩ := hl
    have hm' := hm
    simp only [tnx, Option.map_eq_some_iff] at hm'
    obtain ⟨ht, hht, htn⟩ := hm'
    have hne : ht.name ≠ t.name := by
      intro e
      have := names_inj hn hht hi e
      subst this
      simp at hnd
    have hiA : i ∉ A := by
      intro hmem
      simp only [List.cons_append, List.nodup_cons, List.nodup_append] at hnd
      exact hnd.2.2.2 i hmem i (by simp) rfl
    have hr := removeLoop_spec hi hn (fuel := ts.store.length) hm h2 hiA
      (by simp at hlen; omega)
    obtain ⟨X, hX⟩ := getLastD_split h A
    generalize hc : A.getLastD h = c at hX hr
    have hseg : Seg (tnx ts.store) ts.head ((X ++ [c]) ++ i :: B) none := by
      rw [← hX]; simpa using hl0
    obtain ⟨q, hq1, hq2⟩ := Seg.append.1 hseg
    obtain ⟨r, hr1, hr2⟩ := Seg.append.1 hq1
    obtain ⟨hrc, mc, hmc, hmq⟩ := hr2
    simp only [Seg] at hmq; subst hmq
    obtain ⟨hqi, mi, hmi, hq3⟩ := hq2
    simp only [tnx, hi, Option.map_some, Option.some.injEq] at hmi
    subst hmi
    have hnd2 : ((X ++ [c]) ++ i :: B).Nodup := hseg.nodup
    have hclen : c < ts.store.length := by
      simp only [tnx, Option.map_eq_some_iff] at hmc
      obtain ⟨ct, hct, _⟩ := hmc
      exact (List.getElem?_eq_some_iff.1 hct).1
    refine ⟨{ ts with store := ts.store.modify c (fun c => { c with next := t.next }) }, ?_, ?_, ?_⟩
    · simp [remove, hi, hh, hht, hne, hr]
    · exact np_modify_next
    · show Seg (tnx (List.modify _ _ _)) ts.head _ none
      rw [hX, List.append_assoc]
      refine Seg.append.2 ⟨r, hr1.congr ?_, hrc, t.next, tnx_modify_self hclen, ?_⟩
      · intro j hj
        apply tnx_modify_other
        intro e; subst e
        simp [List.nodup_append] at hnd2
        exact (hnd2.2.2 c hj).1 rfl
      · refine hq3.congr ?_
        intro j hj
        apply tnx_modify_other
        intro e; subst e
        simp [List.nodup_append] at hnd2
        exact hnd2.2.1.1.2 hj

/-! ### operations on well-formed lists -/

theorem sorted_insert {store : List Tool} {L1 L2 : List Nat} {i : Nat} {p : Int}
    (hs : ((L1 ++ L2).map (prio store)).Pairwise (· ≤ ·)) (hp : prio store i = p)
    (h1 : ∀ x ∈ L1, prio store x < p) (h2 : ∀ x, L2.head? = some x → p ≤ prio store x) :
    ((L1 ++ i :: L2).map (prio store)).Pairwise (· ≤ ·) := by
  simp only [List.map_append, List.map_cons, List.pairwise_append, List.pairwise_cons] at hs ⊢
  obtain ⟨ha, hb, hc⟩ := hs
  have h2' : ∀ y ∈ L2.map (prio store), p ≤ y := by
    cases L2 with
    | nil => simp
    | cons b L2 =>
      intro y hy
      have hb0 := h2 b rfl
      simp only [List.map_cons, List.pairwise_cons] at hb
      rcases List.mem_cons.1 hy with rfl | hy
      · exact hb0
      · exact Int.le_trans hb0 (hb.1 y hy)
  refine ⟨ha, ⟨?_, hb⟩, ?_⟩
  · rw [hp]; exact h2'
  · intro x hx y hy
    obtain ⟨x', hx', rfl⟩ := List.mem_map.1 hx
    rcases List.mem_cons.1 hy with rfl | hy
    · rw [hp]; exact Int.le_of_lt (h1 x' hx')
    · exact hc _ hx y hy

theorem empty_ok : Ok {} [] := ⟨rfl, by simp, by simp, by simp⟩

theorem create_spec {ts : Tools} {L : List Nat} (h : Ok ts L) {name : Name}
    (hn : name ∉ ts.store.map Tool.name) :
    ∃ ts' L', create ts name = .ok (ts', ts.store.length) ∧ Ok ts' L' ∧
      np ts'.store = np ts.store ++ [(name, unsetPriority)] := by
  set ts1 : Tools :=
    { ts with store := ts.store ++ [{ name := name, priority := unsetPriority, next := none }] }
    with hts1
  have hnew : ts1.store[ts.store.length]? =
      some { name := name, priority := unsetPriority, next := none } := by simp [ts1]
  have hseg : Seg (tnx ts1.store) ts1.head L none := by
    refine h.linked.congr ?_
    intro j hj
    have := (h.cover j).1 hj
    simp [tnx, ts1, List.getElem?_append_left this]
  have hiL : ts.store.length ∉ L := fun hm => by have := (h.cover _).1 hm; omega
  obtain ⟨ts', L1, L2, hr, e, h1, h2, hnp, hs⟩ := reorder_spec hseg
    (by have := h.length; simp [ts1]; omega) hnew hiL
  have hnp' : np ts'.store = np ts.store ++ [(name, unsetPriority)] := by
    rw [hnp]; simp [np, ts1]
  have hprio : ∀ x ∈ L, prio ts1.store x = prio ts.store x := by
    intro x hx
    have := (h.cover x).1 hx
    simp [prio, npAt, ts1, List.getElem?_append_left this]
  refine ⟨ts', L1 ++ ts.store.length :: L2, ?_, ⟨hs, ?_, ?_, ?_⟩, hnp'⟩
  · simp only [create]; rw [hr]
  · intro i
    have hl : ts'.store.length = ts.store.length + 1 := by
      have := congrArg List.length hnp'; simpa [np] using this
    have := h.cover i
    rw [e] at this
    simp only [List.mem_append, List.mem_cons] at this ⊢
    rw [hl]
    constructor
    · rintro (hm | rfl | hm)
      · have := this.1 (Or.inl hm); omega
      · omega
      · have := this.1 (Or.inr hm); omega
    · intro hlt
      by_cases hi : i = ts.store.length
      · exact Or.inr (Or.inl hi)
      · rcases this.2 (by omega) with hm | hm
        · exact Or.inl hm
        · exact Or.inr (Or.inr hm)
  · rw [np_names hnp]
    simp only [ts1, List.map_append, List.map_cons, List.map_nil]
    rw [List.nodup_append]
    refine ⟨h.names, by simp, ?_⟩
    intro a ha b hb
    simp at hb; subst hb
    intro e; subst e; exact hn ha
  · rw [np_prio hnp]
    refine sorted_insert (p := unsetPriority) ?_ (prio_eq hnew) h1 h2
    rw [← e]
    have : L.map (prio ts1.store) = L.map (prio ts.store) := List.map_congr_left hprio
    rw [this]; exact h.sorted

theorem getOrCreate_spec {ts : Tools} {L : List Nat} (h : Ok ts L) (name : Name) :
    ∃ ts' L' i t, getOrCreate ts name = .ok (ts', i) ∧ Ok ts' L' ∧ ts'.store[i]? = some t ∧
      t.name = name ∧
      ((i < ts.store.length ∧ ts' = ts) ∨
       (i = ts.store.length ∧ name ∉ ts.store.map Tool.name ∧
        np ts'.store = np ts.store ++ [(name, unsetPriority)])) := by
  rcases getTool_spec h name with ⟨i, t, h1, h2, h3⟩ | ⟨h1, h2⟩
  · exact ⟨ts, L, i, t, by simp [getOrCreate, h1], h, h2, h3,
      Or.inl ⟨(List.getElem?_eq_some_iff.1 h2).1, rfl⟩⟩
  · obtain ⟨ts', L', hc, hok, hnp⟩ := create_spec h h2
    have hat : (np ts'.store)[ts.store.length]? = some (name, unsetPriority) := by
      rw [hnp]
      have : (np ts.store).length = ts.store.length := by simp [np]
      rw [← this]; simp
    simp only [np, List.getElem?_map, Option.map_eq_some_iff] at hat
    obtain ⟨t, ht, hte⟩ := hat
    refine ⟨ts', L', _, t, by simp [getOrCreate, h1, hc], hok, ht, ?_, Or.inr ⟨rfl, h2, hnp⟩⟩
    exact congrArg Prod.fst hte

/-- `gotcha_set_priority` sets the priority of the named tool (creating it if needed), changes no
other name or priority, and keeps the list well formed. -/
theorem setPriority_spec {ts : Tools} {L : List Nat} (h : Ok ts L) (name : Name) (v : Int) :
    ∃ ts' L' i ts1, setPriority ts name v = .ok ts' ∧ Ok ts' L' ∧
      getOrCreate ts name = .ok (ts1, i) ∧
      np ts'.store = (np ts1.store).modify i (fun x => (x.1, v)) := by
  obtain ⟨ts1, L1, i, t, hg, hok, hi, htn, _⟩ := getOrCreate_spec h name
  have hilen := (List.getElem?_eq_some_iff.1 hi).1
  set ts2 : Tools := { ts1 with store := ts1.store.modify i (fun t => { t with priority := v }) }
    with hts2
  have hnx : tnx ts2.store = tnx ts1.store := by
    funext j
    simp only [tnx, ts2, List.getElem?_modify]
    by_cases e : i = j
    · subst e; cases ts1.store[i]? <;> simp
    · simp [e]
  have hnames : ts2.store.map Tool.name = ts1.store.map Tool.name := by
    apply List.ext_getElem?
    intro j
    simp only [ts2, List.getElem?_map, List.getElem?_modify]
    by_cases e : i = j
    · subst e; cases ts1.store[i]? <;> simp
    · simp [e]
  have hnp2 : np ts2.store = (np ts1.store).modify i (fun x => (x.1, v)) := by
    apply List.ext_getElem?
    intro j
    simp only [np, ts2, List.getElem?_map, List.getElem?_modify]
    by_cases e : i = j
    · subst e; cases ts1.store[i]? <;> simp
    · simp [e]
  have hi2 : ts2.store[i]? = some { t with priority := v } := by
    simp [ts2, hi]
  have hseg2 : Seg (tnx ts2.store) ts2.head L1 none := by rw [hnx]; exact hok.linked
  have hlen2 : ts2.store.length = ts1.store.length := by simp [ts2]
  -- the second lookup finds the same tool
  have hget2 : getTool ts2 name = .ok (some i) := by
    unfold getTool
    rw [findLoop_spec hseg2 (by rw [hlen2]; exact hok.length)]
    congr 1
    have hfind : ∃ j, L1.find?
        (fun j => decide (((npAt ts2.store j).map Prod.fst) = some name)) = some j := by
      have hmem : i ∈ L1 := (hok.cover i).2 hilen
      rw [← Option.isSome_iff_exists, List.find?_isSome]
      exact ⟨i, hmem, by simp [npAt, hi2, htn]⟩
    obtain ⟨j, hj⟩ := hfind
    rw [hj]
    have := List.find?_some hj
    simp only [npAt, Option.map_map, decide_eq_true_eq, Option.map_eq_some_iff] at this
    obtain ⟨u, hu, hun⟩ := this
    congr 1
    refine names_inj (store := ts2.store) (by rw [hnames]; exact hok.names) hu hi2 ?_
    simp only [Function.comp_apply] at hun
    rw [hun, ← htn]
  obtain ⟨A, B, hAB⟩ := List.append_of_mem ((hok.cover i).2 hilen)
  obtain ⟨ts4, hrem, hnp4, hseg4⟩ := remove_spec (ts := ts2) (A := A) (B := B)
    (by rw [← hAB]; exact hseg2) (by rw [hnames]; exact hok.names)
    (by rw [← hAB, hlen2]; exact hok.length) hi2
  have hi4 : ∃ t4, ts4.store[i]? = some t4 ∧ t4.priority = v := by
    have : npAt ts4.store i = some (t.name, v) := by
      rw [npAt_eq, hnp4, ← npAt_eq]; simp [npAt, hi2]
    simp only [npAt, Option.map_eq_some_iff] at this
    obtain ⟨t4, h4, h5⟩ := this
    exact ⟨t4, h4, congrArg Prod.snd h5⟩
  obtain ⟨t4, hi4, hv4⟩ := hi4
  have hnd := hok.linked.nodup
  rw [hAB] at hnd
  have hiAB : i ∉ A ++ B := by
    simp only [List.nodup_append, List.nodup_cons] at hnd
    intro hm
    rcases List.mem_append.1 hm with hm | hm
    · exact hnd.2.2 i hm i (by simp) rfl
    · exact hnd.2.1.1 hm
  have hlen4 : ts4.store.length = ts1.store.length := by rw [np_length hnp4, hlen2]
  obtain ⟨ts5, M1, M2, hre, e, h1, h2, hnp5, hseg5⟩ := reorder_spec hseg4
    (by have := hok.length; rw [hAB] at this; rw [hlen4]; simp at this ⊢; omega) hi4 hiAB
  refine ⟨ts5, M1 ++ i :: M2, i, ts1, ?_, ⟨hseg5, ?_, ?_, ?_⟩, hg, ?_⟩
  · simp only [setPriority, hg]
    rw [show getOrCreate ts2 name = .ok (ts2, i) by simp [getOrCreate, hget2]]
    simp only [hrem]; exact hre
  · intro j
    rw [np_length hnp5, hlen4, ← hok.cover j, hAB]
    have : j ∈ A ++ B ↔ j ∈ M1 ++ M2 := by rw [e]
    simp only [List.mem_append, List.mem_cons] at this ⊢
    tauto
  · rw [np_names hnp5, np_names hnp4, hnames]; exact hok.names
  · rw [np_prio hnp5]
    refine sorted_insert (p := v) ?_ (by rw [prio_eq hi4, hv4]) (by rw [← hv4]; exact h1)
      (by rw [← hv4]; exact h2)
    rw [← e]
    have hpr : ∀ x ∈ A ++ B, prio ts4.store x = prio ts1.store x := by
      intro x hx
      have hne : i ≠ x := fun e => hiAB (e ▸ hx)
      rw [np_prio hnp4]
      simp [prio, npAt, ts2, hne]
    rw [List.map_congr_left hpr]
    have hsub : List.Sublist (A ++ B) (A ++ i :: B) :=
      List.Sublist.append (List.Sublist.refl _) (List.sublist_cons_self _ _)
    have hs := hok.sorted
    rw [hAB] at hs
    exact hs.sublist (hsub.map _)
  · rw [hnp5, hnp4, hnp2]

end Gotcha.Tools
