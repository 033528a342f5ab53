import Verif.Spec.Walk
import Verif.Props.Threads
namespace Gotcha
open Spec

theorem nodeAt_none {ls : List Lib} {a : Addr} (h : ∀ l ∈ ls, l.lm ≠ a) : nodeAt ls a = none := by
  induction ls with
  | nil => rfl
  | cons l ls ih =>
    rw [nodeAt, if_neg (h l (by simp))]
    exact ih (fun x hx => h x (by simp [hx]))

theorem nodeAt_split {X Y : List Lib} {l : Lib} (h : ((X ++ l :: Y).map Lib.lm).Nodup) :
    nodeAt (X ++ l :: Y) l.lm = some (l, Y.head?.map Lib.lm) := by
  induction X with
  | nil => simp [nodeAt]
  | cons x X ih =>
    simp only [List.cons_append, List.map_cons, List.nodup_cons] at h
    rw [List.cons_append, nodeAt, if_neg]
    · exact ih h.2
    · intro e
      exact h.1 (by rw [e]; simp)

/-- Where the walk is: all the libraries before have been visited. -/
def WalkInv (libs : List Lib) (w : Walk) : Prop :=
  match w.pos with
  | .upd a => ∃ X l Y, libs = X ++ l :: Y ∧ l.lm = a ∧ ∀ x ∈ X, x ∈ w.seen
  | .next a => ∃ X l Y, libs = X ++ l :: Y ∧ l.lm = a ∧ (∀ x ∈ X, x ∈ w.seen) ∧ l ∈ w.seen
  | .fin => True

theorem walkInv_start (s : State) : WalkInv s.linkMap (Walk.start s) := by
  unfold Walk.start
  cases h : s.linkMap with
  | nil => trivial
  | cons l ls => exact ⟨[], l, ls, rfl, rfl, by simp⟩

theorem walkInv_load {libs : List Lib} {w : Walk} (h : WalkInv libs w) (new : List Lib) :
    WalkInv (libs ++ new) w := by
  unfold WalkInv at *
  split
  · rename_i a hp
    rw [hp] at h
    obtain ⟨X, l, Y, rfl, h2, h3⟩ := h
    exact ⟨X, l, Y ++ new, by simp, h2, h3⟩
  · rename_i a hp
    rw [hp] at h
    obtain ⟨X, l, Y, rfl, h2, h3⟩ := h
    exact ⟨X, l, Y ++ new, by simp, h2, h3⟩
  · trivial

theorem walkInv_unload {libs : List Lib} {w : Walk} (h : WalkInv libs w) {dead : Addr → Bool}
    (hd : ∀ a, standsOn a w.pos → dead a = false) :
    WalkInv (libs.filter (fun l => !dead l.lm)) w := by
  unfold WalkInv at *
  split
  · rename_i a hp
    rw [hp] at h hd
    obtain ⟨X, l, Y, rfl, rfl, h3⟩ := h
    refine ⟨X.filter (fun l => !dead l.lm), l, Y.filter (fun l => !dead l.lm), ?_, rfl,
      fun x hx => h3 x (List.mem_filter.1 hx).1⟩
    rw [List.filter_append, List.filter_cons_of_pos]
    rw [hd _ rfl]; rfl
  · rename_i a hp
    rw [hp] at h hd
    obtain ⟨X, l, Y, rfl, rfl, h3, h4⟩ := h
    refine ⟨X.filter (fun l => !dead l.lm), l, Y.filter (fun l => !dead l.lm), ?_, rfl,
      fun x hx => h3 x (List.mem_filter.1 hx).1, h4⟩
    rw [List.filter_append, List.filter_cons_of_pos]
    rw [hd _ rfl]; rfl
  · trivial

/-- One part of the walk, when its pointer is good: it updates a library of the link map, or moves on. -/
theorem walkStep_cases {env : Env} {t : Option (HTable Name BId)} {w : Walk} {s : State}
    (h : WalkInv s.linkMap w) (hn : (s.linkMap.map Lib.lm).Nodup) :
    (∃ X l Y, s.linkMap = X ++ l :: Y ∧ w.pos = .upd l.lm ∧ walkStep env t w s =
        (s.updateLib env (t.getD s.funTab) l (!Y.isEmpty)).map (fun s' => (s', ⟨.next l.lm, l :: w.seen⟩)) ∧
        WalkInv s.linkMap ⟨.next l.lm, l :: w.seen⟩) ∨
    (w.pos = .fin ∧ walkStep env t w s = .ok (s, w)) ∨
    (∃ w', walkStep env t w s = .ok (s, w') ∧ w.pos ≠ .fin ∧ w'.seen = w.seen ∧ WalkInv s.linkMap w' ∧
      (w'.pos = .fin → ∀ l ∈ s.linkMap, l ∈ w.seen)) := by
  unfold WalkInv at h
  unfold walkStep
  split at h
  · rename_i a hp
    obtain ⟨X, l, Y, h1, rfl, h3⟩ := h
    left
    refine ⟨X, l, Y, h1, hp, ?_, ?_⟩
    · rw [hp]
      simp only
      rw [h1] at hn ⊢
      rw [nodeAt_split hn]
      simp only [Option.isSome_map]
      have : Y.head?.isSome = !Y.isEmpty := by cases Y <;> rfl
      rw [this]
      cases s.updateLib env (t.getD s.funTab) l (!Y.isEmpty) <;> rfl
    · exact ⟨X, l, Y, h1, rfl, fun x hx => List.mem_cons_of_mem _ (h3 x hx), List.mem_cons_self ..⟩
  · rename_i a hp
    obtain ⟨X, l, Y, h1, rfl, h3, h4⟩ := h
    right; right
    refine ⟨⟨.ofPtr (Y.head?.map Lib.lm), w.seen⟩, ?_, by rw [hp]; simp, rfl, ?_, ?_⟩
    · rw [hp]
      simp only
      rw [h1] at hn ⊢
      rw [nodeAt_split hn]
    · cases Y with
      | nil => trivial
      | cons y Y =>
        refine ⟨X ++ [l], y, Y, by rw [h1]; simp, rfl, ?_⟩
        intro x hx
        rcases List.mem_append.1 hx with hx | hx
        · exact h3 x hx
        · rw [List.mem_singleton] at hx; subst hx; exact h4
    · intro he x hx
      cases Y with
      | nil =>
        rw [h1] at hx
        rcases List.mem_append.1 hx with hx | hx
        · exact h3 x hx
        · rw [List.mem_singleton] at hx; subst hx; exact h4
      | cons y Y => cases he
  · rename_i hp
    right; left
    rw [hp]
    exact ⟨rfl, rfl⟩

theorem unique_now {libs : List Lib} {es : List WalkEv} (h : Unique libs es) :
    (libs.map Lib.lm).Nodup := by
  induction es with
  | nil => exact h
  | cons e es ih =>
    cases e with
    | step => exact ih h
    | load ld => exact h.1
    | unload dead => exact h.1

theorem walkStep_linkMap {env : Env} {t : Option (HTable Name BId)} {w w' : Walk} {s s' : State}
    (h : walkStep env t w s = .ok (s', w')) : s'.linkMap = s.linkMap := by
  unfold walkStep at h
  split at h
  · split at h
    · cases h
    · obtain ⟨s1, h1, h2⟩ := ebind h
      cases h2
      exact (updateLib_frame h1).1
  · split at h
    · cases h
    · cases h; rfl
  · cases h; rfl

theorem walkInv_step {env : Env} {t : Option (HTable Name BId)} {w w' : Walk} {s s' : State}
    (hi : WalkInv s.linkMap w) (hn : (s.linkMap.map Lib.lm).Nodup)
    (h : walkStep env t w s = .ok (s', w')) : WalkInv s'.linkMap w' := by
  rw [walkStep_linkMap h]
  rcases walkStep_cases (env := env) (t := t) hi hn with ⟨X, l, Y, h1, h2, h3, h4⟩ | ⟨h1, h2⟩ | ⟨w1, h1, -, -, h4, -⟩
  · rw [h3] at h
    cases hu : s.updateLib env (t.getD s.funTab) l (!Y.isEmpty) with
    | error e => rw [hu] at h; cases h
    | ok s1 =>
      rw [hu] at h
      cases h
      exact h4
  · rw [h2] at h
    cases h
    exact hi
  · rw [h1] at h
    cases h
    exact h4

theorem runWalk_inv {env : Env} {t : Option (HTable Name BId)} (es : List WalkEv) :
    ∀ {s s' : State} {w w' : Walk}, WalkInv s.linkMap w → Unique s.linkMap es → Spares env t es s w →
    runWalk env t es s w = .ok (s', w') → WalkInv s'.linkMap w' ∧ (s'.linkMap.map Lib.lm).Nodup := by
  induction es with
  | nil => intro s s' w w' h1 h2 _ h4; cases h4; exact ⟨h1, h2⟩
  | cons e es ih =>
    intro s s' w w' h1 h2 h3 h4
    cases e with
    | step =>
      obtain ⟨⟨s1, w1⟩, h5, h6⟩ := ebind h4
      refine ih (walkInv_step h1 (unique_now h2) h5) ?_ (h3 _ _ h5) h6
      rw [walkStep_linkMap h5]; exact h2
    | load ld => exact ih (walkInv_load h1 _) h2.2 h3 h4
    | unload dead => exact ih (walkInv_unload h1 h3.1) h2.2 h3.2 h4

end Gotcha
