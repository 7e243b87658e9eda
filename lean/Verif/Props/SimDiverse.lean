import Verif.Props.SimTutorial

/-!
C194, exactly when two rollouts of the tutorial are the same.
-/

namespace Verif.SimTutorial

open Verif.SimAgents Verif.ListM

theorem after_eq_iff (p v : S4) (d d' : ℕ → S4) (n : ℕ) :
    (∀ k < n, after p v d (k + 1) = after p v d' (k + 1)) ↔ ∀ k < n, d k = d' k := by
  constructor
  · intro h k hk
    have h0 : after p v d k = after p v d' k := by
      cases k with
      | zero => rfl
      | succ k => exact h k (by omega)
    have := h k hk
    simp only [after] at this
    rw [h0] at this
    exact add_left_cancel (add_left_cancel this)
  · intro h
    have key : ∀ k ≤ n, after p v d k = after p v d' k := by
      intro k
      induction k with
      | zero => intro _; rfl
      | succ k ih => intro hk; simp only [after]; rw [ih (by omega), h k (by omega)]
    exact fun k hk => key (k + 1) hk

theorem map_range_eq_iff {α : Type} (f g : ℕ → α) (n : ℕ) : (List.range n).map f = (List.range n).map g ↔ ∀ k < n, f k = g k := by
  rw [List.map_inj_left]
  simp

/-- **C194**: two rollouts are the same exactly if their noise, scaled by the largest signed velocities, is. -/
theorem Extrapolated.same_iff {s : Scenario ℝ} {noise : ℕ → ℕ → ℕ → S4} {t : Trajs ℝ} {out : List (List (List S4))} {p v : ℕ → S4} {m : S4}
    (h : Extrapolated s noise t out p v m) {r r' : ℕ} (hr : r < 32) (hr' : r' < 32) :
    out[r]? = out[r']? ↔ ∀ i < (agents s).length, ∀ k < 80, noise r i k * m = noise r' i k * m := by
  rw [h.states, List.getElem?_map, List.getElem?_map, List.getElem?_range hr, List.getElem?_range hr']
  simp only [Option.map_some, Option.some.injEq, map_range_eq_iff]
  exact forall_congr' fun i => forall_congr' fun _ => after_eq_iff _ _ _ _ _

theorem ScaleOf.unique {l : List S4} {a b : S4} (ha : ScaleOf l a) (hb : ScaleOf l b) : a = b := by
  have one : ∀ (l : List ℝ) (x y : ℝ), IsMax l x → IsMax l y → x = y := fun l x y hx hy => le_antisymm (hy.2 x hx.1) (hx.2 y hy.1)
  exact Prod.ext (one _ _ _ ha.1 hb.1) (Prod.ext (one _ _ _ ha.2.1 hb.2.1) (Prod.ext (one _ _ _ ha.2.2.1 hb.2.2.1)
    (one _ _ _ ha.2.2.2 hb.2.2.2)))

theorem VelocityOf.unique {t : Track ℝ} {v w : S4} (hv : VelocityOf t v) (hw : VelocityOf t w) : v = w := by
  obtain ⟨a, b, va, vb, ⟨sa, ha, rfl, rfl⟩, ⟨sb, hb, rfl, rfl⟩, rfl⟩ := hv
  obtain ⟨a', b', va', vb', ⟨sa', ha', rfl, rfl⟩, ⟨sb', hb', rfl, rfl⟩, rfl⟩ := hw
  rw [ha, Option.some.injEq] at ha'
  rw [hb, Option.some.injEq] at hb'
  subst ha' hb'
  rfl

/-- **C194**: some noise makes two rollouts differ exactly if the largest signed velocity of the agents is not zero in some coordinate; the
rollouts are the same for every noise otherwise. -/
theorem diverse_iff {s : Scenario ℝ} {n : ℕ} (hc : Complete s n) (hn : 10 < n) (hag : agents s ≠ []) :
    (∃ noise t out, simulate s noise = some (t, out) ∧ ∃ r < 32, ∃ r' < 32, out[r]? ≠ out[r']?) ↔
      ∃ v m, (∀ (i : ℕ) a, (agents s)[i]? = some a → VelocityOf a (v i)) ∧ ScaleOf ((List.range (agents s).length).map v) m ∧ m ≠ 0 := by
  constructor
  · rintro ⟨noise, t, out, h1, r, hr, r', hr', hne⟩
    obtain ⟨t', out', p, v, m, h2, h3⟩ := simulate_spec hc hn hag noise
    rw [h1, Option.some.injEq, Prod.mk.injEq] at h2
    obtain ⟨rfl, rfl⟩ := h2
    refine ⟨v, m, h3.velocity, h3.scale, ?_⟩
    rintro rfl
    exact hne ((h3.same_iff hr hr').2 fun i _ k _ => by simp)
  · rintro ⟨v, m, hv, hm, h0⟩
    obtain ⟨t, out, p, v', m', h2, h3⟩ := simulate_spec hc hn hag fun r _ _ => if r = 0 then 0 else 1
    have hvv : (List.range (agents s).length).map v = (List.range (agents s).length).map v' := by
      rw [map_range_eq_iff]
      intro i hi
      exact (hv i _ (List.getElem?_eq_getElem hi)).unique (h3.velocity i _ (List.getElem?_eq_getElem hi))
    rw [hvv] at hm
    have := hm.unique h3.scale
    subst this
    refine ⟨_, t, out, h2, 0, by norm_num, 1, by norm_num, fun e => ?_⟩
    have := (h3.same_iff (by norm_num) (by norm_num)).1 e 0 (List.length_pos_iff.2 hag) 0 (by norm_num)
    simp at this
    exact h0 this.symm

/-- A car that drives towards positive x makes rollouts differ. -/
theorem diverse_case : ∃ s : Scenario ℝ, Complete s 11 ∧
    ∃ noise t out, simulate s noise = some (t, out) ∧ ∃ r < 32, ∃ r' < 32, out[r]? ≠ out[r']? := by
  refine ⟨⟨[backTrack 1 1], 0, [0]⟩, ⟨by simp, by norm_num, by simp [backTrack], by simp [backTrack]⟩, ?_⟩
  have hag : agents (⟨[backTrack 1 1], 0, [0]⟩ : Scenario ℝ) = [backTrack 1 1] := by simp [agents, backTrack]
  refine (diverse_iff (n := 11) ⟨by simp, by norm_num, by simp [backTrack], by simp [backTrack]⟩ (by norm_num) (by rw [hag]; simp)).2
    ⟨fun _ => (1, 0, 0, 0), (1, 0, 0, 0), ?_, ?_, by simp⟩
  · intro i a ha
    rw [hag] at ha
    cases i with
    | succ i => simp at ha
    | zero =>
      simp only [List.getElem?_cons_zero, Option.some.injEq] at ha
      subst ha
      refine ⟨(10, 0, 0, 0), (9, 0, 0, 0), true, true, ⟨_, rfl, ?_, rfl⟩, ⟨_, rfl, ?_, rfl⟩, by norm_num⟩ <;> simp
  · rw [hag]; simp [ScaleOf, IsMax]

end Verif.SimTutorial
