import Verif.Props.TrackingScene

/-!
# Exactly when the speeds of tracked predictions are as documented (C121)
-/

namespace Verif.Tracking

open Verif.Breakdown Verif.Detection Verif.Measure

variable {O ι : Type}

/-- The speed of the nearest ground truth is unique. -/
theorem speedOf_unique {M : Motion O} {gts : List (Item O ι)} {p : Item O ι} {v w : ℚ × ℚ} (hv : SpeedOf M gts p v)
    (hw : SpeedOf M gts p w) : v = w := by
  rcases hv with ⟨rfl, rfl⟩ | ⟨j, g, hj, rfl, h1, h2⟩
  · rcases hw with ⟨-, rfl⟩ | ⟨k, g, hk, -⟩
    · rfl
    · simp at hk
  · rcases hw with ⟨rfl, -⟩ | ⟨k, g', hk, rfl, h3, h4⟩
    · simp at hj
    · rcases lt_trichotomy j k with h | rfl | h
      · exact absurd (h4 j g h hj) (not_lt.2 (h1 g' (List.mem_of_getElem? hk)))
      · rw [hj] at hk
        cases hk
        rfl
      · exact absurd (h2 k g' h hk) (not_lt.2 (h3 g (List.mem_of_getElem? hj)))

private theorem both {α β : Type} {R S : α → β → Prop} {l : List α} {r : List β} (hR : List.Forall₂ R l r) (hS : List.Forall₂ S l r) :
    ∀ a ∈ l, ∃ b, R a b ∧ S a b := by
  induction hR with
  | nil => intro a ha; simp at ha
  | cons h _ ih =>
    cases hS with
    | cons h' hS =>
      intro a ha
      rcases List.mem_cons.1 ha with rfl | ha
      · exact ⟨_, h, h'⟩
      · exact ih hS a ha

private theorem change {α β : Type} {R S : α → β → Prop} {l : List α} {r : List β} (hR : List.Forall₂ R l r)
    (h : ∀ a ∈ l, ∀ b, R a b → S a b) : List.Forall₂ S l r := by
  induction hR with
  | nil => exact List.Forall₂.nil
  | cons h1 _ ih => exact List.Forall₂.cons (h _ (by simp) _ h1) (ih fun a ha => h a (by simp [ha]))

/-- **C121, exactly**: the documented rule is followed exactly if either speeds are estimated, because the first prediction of the first frame has none, and
the speeds that predictions have are those that would be estimated, or speeds are not estimated and all predictions have one. -/
theorem speed_rule_iff (M : Motion O) (hget : ∀ v o, M.speed (M.setSpeed v o) = some v) (hset : ∀ v o, M.speed o = some v → M.setSpeed v o = o)
    (c : Config O) {xs ys : List (Frame O ι)} (hp : prepared M c xs = some ys) :
    SpeedRule M xs ys ↔
      (Estimates M c xs ∧ ∀ x ∈ xs, ∀ p ∈ x.preds, ∀ v, M.speed p.core = some v → SpeedOf M x.gts p v) ∨
      (¬ Estimates M c xs ∧ ∀ x ∈ xs, ∀ p ∈ x.preds, M.speed p.core ≠ none) := by
  obtain ⟨ys', y1, y2⟩ := prepared_spec M c xs
  rw [hp] at y1
  cases y1
  rcases y2 with ⟨he, y2⟩ | ⟨he, rfl⟩
  · constructor
    · intro hr
      refine Or.inl ⟨he, ?_⟩
      intro x hx p hpx v hv
      obtain ⟨y, h1, h2, -⟩ := both hr y2 x hx
      obtain ⟨q, h3, w, h4, h5, -⟩ := both h1 h2 p hpx
      rw [if_neg (by rw [hv]; simp)] at h3
      subst h3
      have := hget w q.core
      rw [← h5, hv] at this
      cases this
      exact h4
    · rintro (⟨-, h⟩ | ⟨h, -⟩)
      · refine change y2 ?_
        rintro x hx y ⟨h1, -⟩
        refine change h1 ?_
        intro p hpx q hq
        cases hv : M.speed p.core with
        | none => rw [if_pos rfl]; exact hq
        | some v =>
          rw [if_neg (by simp)]
          obtain ⟨w, h4, h5, h6, h7, h8, h9⟩ := hq
          have := speedOf_unique (h x hx p hpx v hv) h4
          subst this
          rw [hset v _ hv] at h5
          cases q; cases p
          simp_all
      · exact absurd he h
  · constructor
    · intro hr
      refine Or.inr ⟨he, ?_⟩
      intro x hx p hpx hn
      have hr := List.forall₂_same.1 hr x hx
      have hr := List.forall₂_same.1 hr p hpx
      rw [if_pos hn] at hr
      obtain ⟨w, -, h5, -⟩ := hr
      have := hget w p.core
      rw [← h5, hn] at this
      cases this
    · rintro (⟨h, -⟩ | ⟨-, h⟩)
      · exact absurd h he
      · refine List.forall₂_same.2 fun x hx => List.forall₂_same.2 fun p hpx => ?_
        rw [if_neg (h x hx p hpx)]

/-- A case: things on a line with a speed that can be set meet the hypotheses. -/
theorem speed_rule_iff_case : (∀ v o, thingMotion.speed (thingMotion.setSpeed v o) = some v) ∧
    ∀ v o, thingMotion.speed o = some v → thingMotion.setSpeed v o = o := by
  refine ⟨fun v o => rfl, ?_⟩
  rintro v ⟨a, s⟩ h
  cases h
  rfl

end Verif.Tracking
