import Verif.Model.ToolApi
import Verif.Props.Tools
/-
C122: configuration keys, removal of tools, lists of binding tables.
-/
namespace Gotcha
namespace Tools

/-- The tool at an index. -/
def shown (ts : Tools) (i : Nat) : Option (Name × Int) :=
  (ts.store[i]?).map (fun t => (t.name, t.priority))

/-- Walking the list of tools ends and shows these tools, with these names and priorities. -/
structure Shows (ts : Tools) (L : List Nat) (ps : List (Name × Int)) : Prop where
  walk : Tools.walk ts.store ts.store.length ts.head = .ok L
  what : L.map (shown ts) = ps.map some

theorem walk_seg {store : List Tool} : ∀ {fuel p L}, Tools.walk store fuel p = .ok L →
    Seg (tnx store) p L none := by
  intro fuel
  induction fuel with
  | zero =>
    intro p L h
    cases p with
    | none => simp only [Tools.walk, Except.ok.injEq] at h; subst h; rfl
    | some i => simp [Tools.walk] at h
  | succ fuel ih =>
    intro p L h
    cases p with
    | none => simp only [Tools.walk, Except.ok.injEq] at h; subst h; rfl
    | some i =>
      simp only [Tools.walk] at h
      split at h
      · cases h
      · rename_i t ht
        split at h
        · cases h
        · rename_i l hl
          cases h
          exact ⟨rfl, t.next, by simp [tnx, ht], ih hl⟩

theorem seg_walk {ts : Tools} {L : List Nat} (h : Seg (tnx ts.store) ts.head L none) :
    Tools.walk ts.store ts.store.length ts.head = .ok L := by
  refine walk_spec h ?_
  have hn := h.nodup
  have : L ⊆ List.range ts.store.length := by
    intro i hi
    obtain ⟨n, hn⟩ := h.mem_some i hi
    simp only [tnx, Option.map_eq_some_iff] at hn
    obtain ⟨t, ht, -⟩ := hn
    rw [List.mem_range]
    exact (List.getElem?_eq_some_iff.1 ht).1
  simpa using (List.Nodup.subperm hn this).length_le

theorem seg_length {ts : Tools} {L : List Nat} (h : Seg (tnx ts.store) ts.head L none) :
    L.length ≤ ts.store.length := by
  have hn := h.nodup
  have : L ⊆ List.range ts.store.length := by
    intro i hi
    obtain ⟨n, hn⟩ := h.mem_some i hi
    simp only [tnx, Option.map_eq_some_iff] at hn
    obtain ⟨t, ht, -⟩ := hn
    rw [List.mem_range]
    exact (List.getElem?_eq_some_iff.1 ht).1
  simpa using (List.Nodup.subperm hn this).length_le

theorem shown_np (ts : Tools) : shown ts = npAt ts.store := rfl

/-- Finding a tool by name, in terms of what the list shows. -/
theorem getTool_shows {ts : Tools} {L ps} (h : Shows ts L ps) (name : Name) :
    (name ∉ ps.map Prod.fst ∧ getTool ts name = .ok none) ∨
    ∃ A B v LA i LB, ps = A ++ (name, v) :: B ∧ name ∉ A.map Prod.fst ∧ L = LA ++ i :: LB ∧
      A.length = LA.length ∧ getTool ts name = .ok (some i) ∧ shown ts i = some (name, v) := by
  have hs := walk_seg h.walk
  have hf := findLoop_spec (name := name) hs (seg_length hs)
  have key : ∀ (L : List Nat) (ps : List (Name × Int)), L.map (shown ts) = ps.map some →
      (name ∉ ps.map Prod.fst ∧
        L.find? (fun i => ((npAt ts.store i).map Prod.fst) = some name) = none) ∨
      ∃ A B v LA i LB, ps = A ++ (name, v) :: B ∧ name ∉ A.map Prod.fst ∧ L = LA ++ i :: LB ∧
        A.length = LA.length ∧
        L.find? (fun i => ((npAt ts.store i).map Prod.fst) = some name) = some i ∧
        shown ts i = some (name, v) := by
    intro L
    induction L with
    | nil =>
      intro ps h
      cases ps with
      | nil => left; simp
      | cons => simp at h
    | cons i L ih =>
      intro ps h
      cases ps with
      | nil => simp at h
      | cons q ps =>
        simp only [List.map_cons, List.cons.injEq] at h
        obtain ⟨h1, h2⟩ := h
        by_cases e : q.1 = name
        · right
          refine ⟨[], ps, q.2, [], i, L, by rw [← e]; rfl, by simp, rfl, rfl, ?_, by rw [h1, ← e]⟩
          rw [List.find?_cons_of_pos]
          simp [← shown_np, h1, e]
        · have hne : ¬ ((npAt ts.store i).map Prod.fst = some name) := by
            rw [← shown_np, h1]; simpa using e
          rcases ih ps h2 with ⟨g1, g2⟩ | ⟨A, B, v, LA, j, LB, rfl, g2, rfl, g4, g5, g6⟩
          · left
            refine ⟨by simpa using ⟨fun hc => e hc.symm, by simpa using g1⟩, ?_⟩
            rw [List.find?_cons_of_neg (by simpa using hne)]
            exact g2
          · right
            refine ⟨q :: A, B, v, i :: LA, j, LB, rfl, ?_, rfl, by simp [g4], ?_, g6⟩
            · simp only [List.map_cons, List.mem_cons, not_or]
              exact ⟨fun hc => e hc.symm, g2⟩
            · rw [List.find?_cons_of_neg (by simpa using hne)]
              exact g5
  rcases key L ps h.what with ⟨h1, h2⟩ | ⟨A, B, v, LA, i, LB, h1, h2, h3, h4, h5, h6⟩
  · exact Or.inl ⟨h1, by unfold getTool; rw [hf, h2]⟩
  · exact Or.inr ⟨A, B, v, LA, i, LB, h1, h2, h3, h4, by unfold getTool; rw [hf, h5], h6⟩

/-- C122: a key other than GOTCHA_PRIORITY is refused with GOTCHA_INTERNAL; the tool is created all
the same if there is none of that name, with the default priority; nothing else changes. -/
theorem C122_unknown_key {ts : Tools} {L ps} (h : Shows ts L ps) (name : Name) {key : Int}
    (hkey : key ≠ 0) (v : Int) :
    ∃ ts' L' ps', configureInt ts name key v = .ok (ts', .internal) ∧ Shows ts' L' ps' ∧
      (name ∈ ps.map Prod.fst → ts' = ts ∧ ps' = ps) ∧
      (name ∉ ps.map Prod.fst → ∃ A B, ps = A ++ B ∧ ps' = A ++ (name, -1) :: B) := by
  rcases getTool_shows h name with ⟨h1, h2⟩ | ⟨A, B, v', LA, i, LB, e1, -, -, -, h5, -⟩
  · have hs := walk_seg h.walk
    set ts1 : Tools :=
      { ts with store := ts.store ++ [{ name := name, priority := unsetPriority, next := none }] }
      with hts1
    have hnew : ts1.store[ts.store.length]? =
        some { name := name, priority := unsetPriority, next := none } := by simp [ts1]
    have hin : ∀ i ∈ L, i < ts.store.length := by
      intro i hi
      obtain ⟨n, hn⟩ := hs.mem_some i hi
      simp only [tnx, Option.map_eq_some_iff] at hn
      obtain ⟨t, ht, -⟩ := hn
      exact (List.getElem?_eq_some_iff.1 ht).1
    have hs1 : Seg (tnx ts1.store) ts1.head L none := by
      refine hs.congr ?_
      intro i hi
      simp [tnx, ts1, List.getElem?_append_left (hin i hi)]
    have hnot : ts.store.length ∉ L := fun hc => Nat.lt_irrefl _ (hin _ hc)
    obtain ⟨ts', L1, L2, hre, e, -, -, hnp, hseg⟩ := reorder_spec hs1
      (by have := seg_length hs; simp [ts1]; omega) hnew hnot
    have hwhat : L.map (shown ts') = ps.map some := by
      rw [← h.what]
      apply List.map_congr_left
      intro i hi
      rw [shown_np, shown_np, npAt_eq, hnp, ← npAt_eq]
      simp [npAt, ts1, List.getElem?_append_left (hin i hi)]
    have hat : shown ts' ts.store.length = some (name, -1) := by
      rw [shown_np, npAt_eq, hnp, ← npAt_eq, npAt, hnew]; rfl
    refine ⟨ts', L1 ++ ts.store.length :: L2,
      ps.take L1.length ++ (name, -1) :: ps.drop L1.length, ?_, ⟨seg_walk hseg, ?_⟩,
      fun hc => absurd hc h1, fun _ => ⟨_, _, (List.take_append_drop _ _).symm, rfl⟩⟩
    · simp only [configureInt, getOrCreate, h2, create]
      rw [hre]
      simp [keyPriority, hkey]
    · rw [e, List.map_append] at hwhat
      have e1 : L1.map (shown ts') = (ps.take L1.length).map some := by
        have := congrArg (List.take L1.length) hwhat
        rw [List.take_append_of_le_length (by simp), List.take_of_length_le (by simp)] at this
        rw [this, List.map_take]
      have e2 : L2.map (shown ts') = (ps.drop L1.length).map some := by
        have := congrArg (List.drop L1.length) hwhat
        rw [List.drop_append_of_le_length (by simp), List.drop_of_length_le (by simp)] at this
        rw [List.nil_append] at this
        rw [this, List.map_drop]
      rw [List.map_append, List.map_cons, e1, e2, hat, List.map_append, List.map_cons]
  · refine ⟨ts, L, ps, ?_, h, fun _ => ⟨rfl, rfl⟩, fun hc => absurd ?_ hc⟩
    · simp [configureInt, getOrCreate, h5, keyPriority, hkey]
    · rw [e1]; simp

/-- C122: asking for a value: the priority of the first tool shown under that name; GOTCHA_INVALID_TOOL
for other names and GOTCHA_INTERNAL for other keys, and then the location keeps what it had. -/
theorem C122_get {ts : Tools} {L ps} (h : Shows ts L ps) (name : Name) (key old : Int) :
    getConfig ts name key old =
      match ps.find? (fun q => decide (q.1 = name)) with
      | none => .ok (.invalidTool, old)
      | some q => if key = 0 then .ok (.success, q.2) else .ok (.internal, old) := by
  rcases getTool_shows h name with ⟨h1, h2⟩ | ⟨A, B, v, LA, i, LB, rfl, h2, -, -, h5, h6⟩
  · have : ps.find? (fun q => decide (q.1 = name)) = none := by
      rw [List.find?_eq_none]
      intro q hq hc
      exact h1 (List.mem_map.2 ⟨q, hq, by simpa using hc⟩)
    rw [this]
    simp [getConfig, h2]
  · have hA : A.find? (fun q => decide (q.1 = name)) = none := by
      rw [List.find?_eq_none]
      intro q hq hc
      exact h2 (List.mem_map.2 ⟨q, hq, by simpa using hc⟩)
    have : (A ++ (name, v) :: B).find? (fun q => decide (q.1 = name)) = some (name, v) := by
      rw [List.find?_append, hA]; simp
    rw [this]
    simp only [shown, Option.map_eq_some_iff, Prod.mk.injEq] at h6
    obtain ⟨t, ht, -, rfl⟩ := h6
    simp only [getConfig, h5, ht, keyPriority, defaultValue]
    by_cases hk : key = 0
    · by_cases hp : t.priority = unsetPriority
      · simp [hk, hp]
      · simp [hk, hp]
    · simp [hk]

/-- Removing a tool of the list: the loop. -/
theorem removeLoop_listed {ts : Tools} {t : Tool} {i : Nat} (hi : ts.store[i]? = some t)
    {A B : List Nat} : ∀ {fuel cur n}, tnx ts.store cur = some n →
      Seg (tnx ts.store) n (A ++ i :: B) none →
      (∀ a ∈ A, (shown ts a).map Prod.fst ≠ some t.name) → A.length < fuel →
      removeLoop ts.store t fuel cur =
        .ok (ts.store.modify (A.getLastD cur) (fun c => { c with next := t.next })) := by
  induction A with
  | nil =>
    intro fuel cur n hc hs _ hf
    cases fuel with
    | zero => simp at hf
    | succ fuel =>
      obtain ⟨rfl, m, hm, h2⟩ := hs
      simp only [tnx, Option.map_eq_some_iff] at hc
      obtain ⟨c, hc, hcn⟩ := hc
      simp [removeLoop, hc, hcn, hi]
  | cons a A ih =>
    intro fuel cur n hc hs hA hf
    cases fuel with
    | zero => simp at hf
    | succ fuel =>
      obtain ⟨rfl, m, hm, h2⟩ := hs
      simp only [tnx, Option.map_eq_some_iff] at hc
      obtain ⟨c, hc, hcn⟩ := hc
      have hm' := hm
      simp only [tnx, Option.map_eq_some_iff] at hm'
      obtain ⟨u, hu, hun⟩ := hm'
      have hne : u.name ≠ t.name := by
        have := hA a (by simp)
        simpa [shown, hu] using this
      simp only [removeLoop, hc, hcn, hu, hne, if_false, List.getLastD_cons]
      exact ih hm h2 (fun x hx => hA x (List.mem_cons_of_mem _ hx)) (by simpa using hf)

/-- C122: removing a tool of the list takes out that tool and changes nothing else. -/
theorem C122_remove {ts : Tools} {A B : List Nat} {i : Nat} {PA PB : List (Name × Int)}
    {q : Name × Int} (h : Shows ts (A ++ i :: B) (PA ++ q :: PB)) (hlen : A.length = PA.length)
    (hn : ((PA ++ q :: PB).map Prod.fst).Nodup) :
    ∃ ts', remove ts i = .ok ts' ∧ Shows ts' (A ++ B) (PA ++ PB) := by
  have hl := walk_seg h.walk
  have hnd := hl.nodup
  have hwhat := h.what
  simp only [List.map_append, List.map_cons] at hwhat
  obtain ⟨hPA, hrest⟩ := List.append_inj hwhat (by simp [hlen])
  simp only [List.cons.injEq] at hrest
  obtain ⟨hq, hPB⟩ := hrest
  obtain ⟨t, hi, hqt⟩ : ∃ t, ts.store[i]? = some t ∧ (t.name, t.priority) = q := by
    simpa [shown, Option.map_eq_some_iff] using hq
  have hAname : ∀ a ∈ A, (shown ts a).map Prod.fst ≠ some t.name := by
    intro a ha hc
    have : shown ts a ∈ PA.map some := by rw [← hPA]; exact List.mem_map.2 ⟨a, ha, rfl⟩
    obtain ⟨r, hr, e⟩ := List.mem_map.1 this
    rw [← e] at hc
    simp only [Option.map_some, Option.some.injEq] at hc
    simp only [List.map_append, List.map_cons, List.nodup_append] at hn
    exact hn.2.2 r.1 (List.mem_map.2 ⟨r, hr, rfl⟩) q.1 (by simp) (by rw [hc, ← hqt])
  have fin : ∀ ts' : Tools, np ts'.store = np ts.store → (A ++ B).map (shown ts') = (PA ++ PB).map some := by
    intro ts' hnp
    have : shown ts' = shown ts := by
      funext j; rw [shown_np, shown_np, npAt_eq, hnp, ← npAt_eq]
    rw [this, List.map_append, hPA, hPB, List.map_append]
  cases A with
  | nil =>
    obtain ⟨hh, m, hm, h2⟩ := hl
    simp only [tnx, hi, Option.map_some, Option.some.injEq] at hm
    subst hm
    exact ⟨{ ts with head := t.next }, by simp [remove, hi, hh], seg_walk h2, fin _ rfl⟩
  | cons hd A =>
    have hl0 := hl
    obtain ⟨hh, m, hm, h2⟩ := hl
    have hm' := hm
    simp only [tnx, Option.map_eq_some_iff] at hm'
    obtain ⟨ht, hht, htn⟩ := hm'
    have hne : ht.name ≠ t.name := by
      have := hAname hd (by simp)
      simpa [shown, hht] using this
    have hL := seg_length hl0
    have hr := removeLoop_listed hi (fuel := ts.store.length) hm h2
      (fun a ha => hAname a (List.mem_cons_of_mem _ ha)) (by simp at hL; omega)
    obtain ⟨X, hX⟩ := getLastD_split hd A
    generalize hc : A.getLastD hd = c at hX hr
    have hseg : Seg (tnx ts.store) ts.head ((X ++ [c]) ++ i :: B) none := by
      rw [← hX]; simpa using hl0
    obtain ⟨r, hq1, hq2⟩ := Seg.append.1 hseg
    obtain ⟨r', hr1, hr2⟩ := Seg.append.1 hq1
    obtain ⟨hrc, mc, hmc, hmq⟩ := hr2
    simp only [Seg] at hmq; subst hmq
    obtain ⟨hqi, mi, hmi, hq3⟩ := hq2
    simp only [tnx, hi, Option.map_some, Option.some.injEq] at hmi
    subst hmi
    have hnd2 : ((X ++ [c]) ++ i :: B).Nodup := hseg.nodup
    have hclen : c < ts.store.length := by
      simp only [tnx, Option.map_eq_some_iff] at hmc
      obtain ⟨ct, hct, _⟩ := hmc
      exact (List.getElem?_eq_some_iff.1 hct).1
    refine ⟨{ ts with store := ts.store.modify c (fun c => { c with next := t.next }) }, ?_,
      seg_walk ?_, fin _ np_modify_next⟩
    · simp [remove, hi, hh, hht, hne, hr]
    · show Seg (tnx (List.modify _ _ _)) ts.head _ none
      rw [hX, List.append_assoc]
      refine Seg.append.2 ⟨r', hr1.congr ?_, hrc, t.next, tnx_modify_self hclen, ?_⟩
      · intro j hj
        apply tnx_modify_other
        intro e; subst e
        simp [List.nodup_append] at hnd2
        exact (hnd2.2.2 c hj).1 rfl
      · refine hq3.congr ?_
        intro j hj
        apply tnx_modify_other
        intro e; subst e
        simp [List.nodup_append] at hnd2
        exact hnd2.2.1.1.2 hj

theorem removeLoop_missing {ts : Tools} {t : Tool} {L : List Nat} : ∀ {fuel cur n},
    tnx ts.store cur = some n → Seg (tnx ts.store) n L none →
    (∀ a ∈ L, (shown ts a).map Prod.fst ≠ some t.name) → L.length < fuel →
    removeLoop ts.store t fuel cur = .error .nullDeref := by
  induction L with
  | nil =>
    intro fuel cur n hc hs _ hf
    cases fuel with
    | zero => simp at hf
    | succ fuel =>
      simp only [Seg] at hs
      subst hs
      simp only [tnx, Option.map_eq_some_iff] at hc
      obtain ⟨c, hc, hcn⟩ := hc
      simp [removeLoop, hc, hcn]
  | cons a L ih =>
    intro fuel cur n hc hs hA hf
    cases fuel with
    | zero => simp at hf
    | succ fuel =>
      obtain ⟨rfl, m, hm, h2⟩ := hs
      simp only [tnx, Option.map_eq_some_iff] at hc
      obtain ⟨c, hc, hcn⟩ := hc
      have hm' := hm
      simp only [tnx, Option.map_eq_some_iff] at hm'
      obtain ⟨u, hu, hun⟩ := hm'
      have hne : u.name ≠ t.name := by
        have := hA a (by simp)
        simpa [shown, hu] using this
      simp only [removeLoop, hc, hcn, hu, hne, if_false]
      exact ih hm h2 (fun x hx => hA x (List.mem_cons_of_mem _ hx)) (by simpa using hf)

/-- C122: removing a tool whose name the list does not have dereferences a NULL pointer, unless the
list is empty. -/
theorem C122_remove_missing {ts : Tools} {L ps} (h : Shows ts L ps) {i : Nat} {t : Tool}
    (hi : ts.store[i]? = some t) (hn : t.name ∉ ps.map Prod.fst) :
    remove ts i = if ps = [] then .ok ts else .error .nullDeref := by
  have hs := walk_seg h.walk
  have hL := seg_length hs
  cases ps with
  | nil =>
    have hw := h.what
    simp only [List.map_nil, List.map_eq_nil_iff] at hw
    subst hw
    simp only [Seg] at hs
    simp [remove, hi, hs]
  | cons q ps =>
    have hw := h.what
    cases L with
    | nil => simp at hw
    | cons a L =>
      have hall : ∀ x ∈ a :: L, (shown ts x).map Prod.fst ≠ some t.name := by
        intro x hx hc
        have : shown ts x ∈ (q :: ps).map some := by
          rw [← hw]; exact List.mem_map.2 ⟨x, hx, rfl⟩
        obtain ⟨r, hr, e⟩ := List.mem_map.1 this
        rw [← e] at hc
        simp only [Option.map_some, Option.some.injEq] at hc
        exact hn (by rw [← hc]; exact List.mem_map.2 ⟨r, hr, rfl⟩)
      obtain ⟨hh, m, hm, h2⟩ := hs
      have hm' := hm
      simp only [tnx, Option.map_eq_some_iff] at hm'
      obtain ⟨u, hu, hun⟩ := hm'
      have hne : u.name ≠ t.name := by
        have := hall a (by simp)
        simpa [shown, hu] using this
      have := removeLoop_missing (t := t) (fuel := ts.store.length) hm h2
        (fun x hx => hall x (List.mem_cons_of_mem _ hx)) (by simp at hL; omega)
      simp [remove, hi, hh, hu, hne, this]

/-- C122: the unit test's loop empties every list of tools. -/
theorem C122_remove_all {ts : Tools} {L ps} (h : Shows ts L ps) :
    ∃ ts', removeAll ts.store.length ts.head ts = .ok ts' ∧ Shows ts' [] [] := by
  have key : ∀ (L : List Nat) fuel (ts : Tools), Seg (tnx ts.store) ts.head L none → L.length ≤ fuel →
      ∃ ts', removeAll fuel ts.head ts = .ok ts' ∧ ts'.head = none := by
    intro L
    induction L with
    | nil =>
      intro fuel ts hs _
      simp only [Seg] at hs
      exact ⟨ts, by rw [hs]; cases fuel <;> rfl, hs⟩
    | cons i L ih =>
      intro fuel ts hs hf
      cases fuel with
      | zero => simp at hf
      | succ fuel =>
        obtain ⟨hh, n, hn, h2⟩ := hs
        simp only [tnx, Option.map_eq_some_iff] at hn
        obtain ⟨t, ht, rfl⟩ := hn
        obtain ⟨ts', h3, h4⟩ := ih fuel { ts with head := t.next } h2 (by simpa using hf)
        refine ⟨ts', ?_, h4⟩
        rw [hh]
        simp only [removeAll, ht]
        rw [show remove ts i = .ok { ts with head := t.next } by simp [remove, ht, hh]]
        exact h3
  have hs := walk_seg h.walk
  obtain ⟨ts', h1, h2⟩ := key L _ ts hs (seg_length hs)
  refine ⟨ts', h1, ?_, rfl⟩
  rw [h2]; cases ts'.store.length <;> rfl

/-- C122: the end of symbol_wrap_test: the third tool of the list is removed, then the loop. -/
theorem C122_symbol_wrap_test {ts : Tools} {a b c : Nat} {L : List Nat} {ps}
    (h : Shows ts (a :: b :: c :: L) ps) (hn : (ps.map Prod.fst).Nodup) :
    ∃ ts' ts'', remove ts c = .ok ts' ∧ removeAll ts'.store.length ts'.head ts' = .ok ts'' ∧
      Shows ts'' [] [] := by
  match ps, h, hn with
  | [], h, _ => have := h.what; simp at this
  | [_], h, _ => have := h.what; simp at this
  | [_, _], h, _ => have := h.what; simp at this
  | p :: q :: r :: ps, h, hn =>
    obtain ⟨ts', h1, h2⟩ := C122_remove (A := [a, b]) (PA := [p, q]) h rfl hn
    obtain ⟨ts'', h3, h4⟩ := C122_remove_all h2
    exact ⟨ts', ts'', h1, h3, h4⟩

open Spec in
/-- C122: after every history the list shows each tool in use once, with its priority; so what is said
here about lists applies to all of them. -/
theorem C122_after_history {p : Process} (ok : p.Ok) {strict : Prop} {ops : List Op}
    (h : Events p strict ops) {s os} (hr : run p.env ops p.start = .ok (s, os)) :
    ∃ L ps, Shows s.tools L ps ∧ (ps.map Prod.fst).Nodup ∧
      ∀ n v, (n, v) ∈ ps ↔ prioAfter n ops = some v := by
  obtain ⟨L, h1, ts, h2, h3, -, h4⟩ := C21_tool_list ok h hr
  refine ⟨L, ts.map (fun t => (t.name, t.priority)), ⟨h1, ?_⟩, ?_, ?_⟩
  · have := congrArg (List.map (Option.map (fun t : Tool => (t.name, t.priority)))) h2
    simp only [List.map_map] at this ⊢
    exact this.symm
  · simpa [Function.comp_def] using h3
  · intro n v
    rw [← h4 n v]
    simp only [List.mem_map, Prod.mk.injEq]

/-! ### a concrete list -/

/-- Four tools; b was removed and made again. -/
def demoList : Tools :=
  { store := [⟨nm "a", -1, none⟩, ⟨nm "b", -1, some 0⟩, ⟨nm "c", -1, some 0⟩, ⟨nm "b", -1, some 2⟩,
      ⟨nm "d", -1, some 3⟩]
    head := some 4 }

def demoShown : List (Name × Int) := [(nm "d", -1), (nm "b", -1), (nm "c", -1), (nm "a", -1)]

theorem demo_shows : Shows demoList [4, 3, 2, 0] demoShown := ⟨rfl, rfl⟩

theorem demo_names : (demoShown.map Prod.fst).Nodup := by decide +kernel

/-- That is how the list came about. -/
theorem demo_made : (do
    let (ts, _) ← create {} (nm "a")
    let (ts, i) ← create ts (nm "b")
    let (ts, _) ← create ts (nm "c")
    let ts ← remove ts i
    let (ts, _) ← create ts (nm "b")
    let (ts, _) ← create ts (nm "d")
    pure ts) = (Except.ok demoList : Except Fault Tools) := by decide +kernel

example : ∃ ts' ts'', remove demoList 2 = .ok ts' ∧
    removeAll ts'.store.length ts'.head ts' = .ok ts'' ∧ Shows ts'' [] [] :=
  C122_symbol_wrap_test demo_shows demo_names

/-- An unknown key makes a tool. -/
example : ∃ ts' L' A B, configureInt demoList (nm "e") 2 7 = .ok (ts', .internal) ∧
    Shows ts' L' (A ++ (nm "e", -1) :: B) ∧ demoShown = A ++ B := by
  obtain ⟨ts', L', ps', h1, h2, -, h3⟩ := C122_unknown_key demo_shows (nm "e") (key := 2) (by decide) 7
  obtain ⟨A, B, h4, rfl⟩ := h3 (by decide +kernel)
  exact ⟨ts', L', A, B, h1, h2, h4⟩

/-- C122: removing a tool that was removed before, when there is a new tool of that name, should take
out the new one only. -/
theorem C122_remove_stale_refuted : ¬ ∀ (ts ts' : Tools) (i : Nat) (t : Tool) (L L' : List Nat)
    (ps ps' : List (Name × Int)), Shows ts L ps → (ps.map Prod.fst).Nodup → ts.store[i]? = some t →
    remove ts i = .ok ts' → Shows ts' L' ps' → ∀ q ∈ ps, q.1 ≠ t.name → q ∈ ps' := by
  intro h
  have := h demoList
    { store := [⟨nm "a", -1, none⟩, ⟨nm "b", -1, some 0⟩, ⟨nm "c", -1, some 0⟩, ⟨nm "b", -1, some 2⟩,
        ⟨nm "d", -1, some 0⟩], head := some 4 } 1 ⟨nm "b", -1, some 0⟩ [4, 3, 2, 0] [4, 0] demoShown
    [(nm "d", -1), (nm "a", -1)] demo_shows demo_names rfl (by decide +kernel) ⟨rfl, rfl⟩
    (nm "c", -1) (by simp [demoShown]) (by decide +kernel)
  revert this
  decide +kernel

end Tools

namespace Tables

/-- The tables added, in order. -/
def added : List Ev → List (Nat × List UBinding)
  | [] => []
  | .tool :: evs => added evs
  | .table t u :: evs => (t, u) :: added evs

/-- Number of tools made. -/
def made (evs : List Ev) : Nat := (evs.filter (fun | .tool => true | _ => false)).length

/-- Tables are added to tools that exist, `n` of them at the beginning. -/
def Exist : Nat → List Ev → Prop
  | _, [] => True
  | n, .tool :: evs => Exist (n + 1) evs
  | n, .table t _ :: evs => t < n ∧ Exist n evs

theorem walk_more {nx : BTable → Option Nat} {store : List BTable} {x : BTable} : ∀ {fuel p l},
    walk nx store fuel p = .ok l → walk nx (store ++ [x]) fuel p = .ok l := by
  intro fuel
  induction fuel with
  | zero => intro p l h; cases p <;> simpa [walk] using h
  | succ fuel ih =>
    intro p l h
    cases p with
    | none => simpa [walk] using h
    | some i =>
      simp only [walk] at h ⊢
      split at h
      · cases h
      · rename_i t ht
        rw [List.getElem?_append_left (List.getElem?_eq_some_iff.1 ht).1, ht]
        split at h
        · cases h
        · rename_i l' hl'
          simp only [ih hl']
          exact h

structure Inv (b : Tables) (done : List (Nat × List UBinding)) : Prop where
  len : b.store.length = done.length
  bound : ∀ q ∈ done, q.1 < b.binding.length
  all : b.getBindings = .ok done.reverse
  each : ∀ t < b.binding.length,
    b.getToolBindings t = .ok (done.filter (fun q => decide (q.1 = t))).reverse

theorem walk_fuel {nx : BTable → Option Nat} {store : List BTable} : ∀ {fuel p l},
    walk nx store fuel p = .ok l → walk nx store (fuel + 1) p = .ok l := by
  intro fuel
  induction fuel with
  | zero => intro p l h; cases p <;> simp [walk] at h ⊢; exact h
  | succ fuel ih =>
    intro p l h
    cases p with
    | none => simpa [walk] using h
    | some i =>
      rw [walk] at h ⊢
      cases ht : store[i]? with
      | none => rw [ht] at h; cases h
      | some t =>
        rw [ht] at h
        simp only at h ⊢
        cases hw : walk nx store fuel (nx t) with
        | error f => rw [hw] at h; cases h
        | ok l' => rw [hw] at h; rw [ih hw]; exact h

theorem run_inv (evs : List Ev) : ∀ {b done}, Inv b done → Exist b.binding.length evs →
    ∃ b', run evs b = .ok b' ∧ Inv b' (done ++ added evs) ∧
      b'.binding.length = b.binding.length + made evs := by
  induction evs with
  | nil => intro b done h _; exact ⟨b, rfl, by simpa [added] using h, by simp [made]⟩
  | cons e evs ih =>
    intro b done h he
    cases e with
    | tool =>
      have h' : Inv b.newTool done := by
        refine ⟨h.len, fun q hq => by have := h.bound q hq; simp [newTool]; omega, h.all, ?_⟩
        intro t ht
        simp only [newTool, List.length_append, List.length_singleton] at ht
        by_cases hlt : t < b.binding.length
        · have := h.each t hlt
          simpa [getToolBindings, newTool, List.getElem?_append_left hlt] using this
        · have hte : t = b.binding.length := by omega
          subst hte
          have : done.filter (fun q => decide (q.1 = b.binding.length)) = [] := by
            rw [List.filter_eq_nil_iff]
            intro q hq hc
            have := h.bound q hq
            simp only [decide_eq_true_eq] at hc
            omega
          rw [this]
          simp only [getToolBindings, newTool, List.getElem?_concat_length]
          cases b.store.length <;> rfl
      obtain ⟨b', h1, h2, h3⟩ := ih h' (by simpa [newTool, Exist] using he)
      refine ⟨b', h1, h2, ?_⟩
      rw [h3]
      simp [newTool, made]; omega
    | table t u =>
      obtain ⟨ht, he⟩ := he
      have hb : b.binding[t]? = some b.binding[t] := List.getElem?_eq_getElem ht
      set b1 : Tables :=
        { store := b.store ++ [{ tool := t, user := u, nextTool := b.binding[t], next := b.all }]
          binding := b.binding.set t (some b.store.length)
          all := some b.store.length } with hb1
      have hadd : b.add t u = .ok b1 := by simp [add, hb, b1]
      have hlast : b1.store[b.store.length]? =
          some { tool := t, user := u, nextTool := b.binding[t], next := b.all } := by simp [b1]
      have hlen1 : b1.store.length = b.store.length + 1 := by simp [b1]
      have h' : Inv b1 (done ++ [(t, u)]) := by
        refine ⟨by simp [b1, h.len], ?_, ?_, ?_⟩
        · intro q hq
          simp only [b1, List.length_set]
          rcases List.mem_append.1 hq with hq | hq
          · exact h.bound q hq
          · rw [List.mem_singleton] at hq; subst hq; exact ht
        · show walk _ _ _ _ = _
          rw [hlen1]
          have hall := h.all
          unfold getBindings at hall
          rw [show b1.all = some b.store.length from rfl, walk, hlast]
          simp only
          rw [show b1.store = b.store ++ [_] from rfl, walk_more hall]
          simp
        · intro t' ht'
          simp only [b1, List.length_set] at ht'
          have hold := h.each t' ht'
          unfold getToolBindings at hold ⊢
          rw [List.getElem?_eq_getElem ht'] at hold
          simp only at hold
          by_cases e : t' = t
          · subst e
            rw [show b1.binding[t']? = some (some b.store.length) by simp [b1, ht']]
            simp only
            rw [hlen1, walk, hlast]
            simp only
            rw [show b1.store = b.store ++ [_] from rfl, walk_more hold]
            simp
          · rw [show b1.binding[t']? = some b.binding[t'] by
              simp [b1, List.getElem?_set_ne (Ne.symm e), List.getElem?_eq_getElem ht']]
            simp only
            rw [hlen1, show b1.store = b.store ++ [_] from rfl, walk_fuel (walk_more hold)]
            simp [Ne.symm e]
      obtain ⟨b', h1, h2, h3⟩ := ih h' (by simpa [b1] using he)
      refine ⟨b', by simp only [run, hadd]; exact h1, by simpa [added] using h2, ?_⟩
      rw [h3]
      simp [b1, made]

/-- C122: whatever tools are made and tables added, get_bindings leads to every table once, the newest
first, and get_tool_bindings to those of the tool, the newest first. -/
theorem C122_tables (evs : List Ev) (he : Exist 0 evs) :
    ∃ b, run evs {} = .ok b ∧ b.getBindings = .ok (added evs).reverse ∧
      ∀ t < made evs, b.getToolBindings t =
        .ok ((added evs).filter (fun q => decide (q.1 = t))).reverse := by
  obtain ⟨b, h1, h2, h3⟩ := run_inv evs (b := {}) (done := [])
    ⟨rfl, by simp, rfl, by intro t ht; simp at ht⟩ he
  refine ⟨b, h1, by simpa using h2.all, ?_⟩
  intro t ht
  have := h2.each t (by rw [h3]; simpa using ht)
  simpa using this

/-- Two tools, three tables. -/
example : ∃ b, run [.tool, .table 0 [⟨nm "f", 1, 1⟩], .tool, .table 1 [⟨nm "g", 2, 2⟩],
      .table 0 [⟨nm "h", 3, 3⟩]] {} = .ok b ∧
    b.getBindings = .ok [(0, [⟨nm "h", 3, 3⟩]), (1, [⟨nm "g", 2, 2⟩]), (0, [⟨nm "f", 1, 1⟩])] ∧
    b.getToolBindings 0 = .ok [(0, [⟨nm "h", 3, 3⟩]), (0, [⟨nm "f", 1, 1⟩])] := by
  obtain ⟨b, h1, h2, h3⟩ := C122_tables [.tool, .table 0 [⟨nm "f", 1, 1⟩], .tool,
    .table 1 [⟨nm "g", 2, 2⟩], .table 0 [⟨nm "h", 3, 3⟩]] ⟨by decide, by decide, by decide, trivial⟩
  exact ⟨b, h1, h2, h3 0 (by decide)⟩

end Tables
end Gotcha
