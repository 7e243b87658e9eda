import Verif.Lemmas.Zonotope
import Verif.Lemmas.ListM
import Mathlib.Analysis.SpecialFunctions.Sqrt

/-!
What `signedDistance` computes for any polygon with no edge of length zero.
-/

namespace Verif.Planar

open Verif.ListM

theorem norm_nonneg (a : P) : 0 ≤ norm a := Real.sqrt_nonneg _

theorem norm_sq (a : P) : norm a ^ 2 = a.1 ^ 2 + a.2 ^ 2 := Real.sq_sqrt (by positivity)

theorem norm_eq_zero {a : P} : norm a = 0 ↔ a = (0, 0) := by
  constructor
  · intro h
    have := norm_sq a
    rw [h] at this
    ext
    · nlinarith [sq_nonneg a.1, sq_nonneg a.2]
    · nlinarith [sq_nonneg a.1, sq_nonneg a.2]
  · rintro rfl
    simp [norm]

theorem norm_le_of_sq {a : P} {m : ℝ} (hm : 0 ≤ m) (h : a.1 ^ 2 + a.2 ^ 2 ≤ m ^ 2) : norm a ≤ m := by
  rw [norm, Real.sqrt_le_left hm]
  exact h

theorem le_norm_of_sq {a : P} {m : ℝ} (h : m ^ 2 ≤ a.1 ^ 2 + a.2 ^ 2) : m ≤ norm a := Real.le_sqrt_of_sq_le h

theorem norm_eq_of_sq {a : P} {m : ℝ} (hm : 0 ≤ m) (h : a.1 ^ 2 + a.2 ^ 2 = m ^ 2) : norm a = m :=
  le_antisymm (norm_le_of_sq hm h.le) (le_norm_of_sq h.ge)

theorem norm_le_norm {a b : P} (h : a.1 ^ 2 + a.2 ^ 2 ≤ b.1 ^ 2 + b.2 ^ 2) : norm a ≤ norm b := Real.sqrt_le_sqrt h

/-- The sides of an edge, as a number: positive on the left. -/
theorem perp_eq (q : P) {e : P × P} (h : norm (e.2 - e.1) ≠ 0) :
    perp q e = some (-(cross (e.2 - e.1) (q - e.1) / norm (e.2 - e.1))) := by
  unfold perp unit
  rw [if_neg h]
  simp only [Option.bind_eq_bind, Option.bind_some, Option.pure_def, Option.some.injEq, cross]
  field_simp
  ring

theorem edgeDistance_eq (q : P) {e : P × P} (h : norm (e.2 - e.1) ≠ 0) : edgeDistance q e = some
    (if 0 ≤ dot (e.2 - e.1) (q - e.1) / norm (e.2 - e.1) ^ 2 ∧ dot (e.2 - e.1) (q - e.1) / norm (e.2 - e.1) ^ 2 ≤ 1 then
      some (|cross (e.2 - e.1) (q - e.1)| / norm (e.2 - e.1)) else none) := by
  have hp := perp_eq q h
  unfold edgeDistance
  rw [hp]
  unfold unit
  rw [if_neg h]
  simp only [Option.bind_eq_bind, Option.bind_some, Option.pure_def, Option.some.injEq]
  have e1 : dot ((e.2 - e.1).1 / norm (e.2 - e.1), (e.2 - e.1).2 / norm (e.2 - e.1)) (q - e.1) / norm (e.2 - e.1) =
      dot (e.2 - e.1) (q - e.1) / norm (e.2 - e.1) ^ 2 := by
    simp only [dot]
    field_simp
  rw [e1, abs_neg, abs_div, abs_of_nonneg (norm_nonneg _)]

theorem edges_fst (poly : List P) : (edges poly).map Prod.fst = poly := by
  unfold edges
  apply List.map_fst_zip
  simp only [List.length_append, List.length_drop, List.length_take]
  omega

theorem edges_snd {poly : List P} {e : P × P} (h : e ∈ edges poly) : e.2 ∈ poly := by
  unfold edges at h
  have := List.of_mem_zip h
  rcases List.mem_append.1 this.2 with h | h
  · exact List.mem_of_mem_drop h
  · exact List.mem_of_mem_take h

theorem mem_edges_fst {poly : List P} {v : P} (h : v ∈ poly) : ∃ e ∈ edges poly, e.1 = v := by
  rw [← edges_fst poly] at h
  exact List.mem_map.1 h

theorem least_spec {l : List ℝ} (h : l ≠ []) : ∃ m ∈ l, least l = some m ∧ ∀ x ∈ l, m ≤ x := by
  cases l with
  | nil => exact absurd rfl h
  | cons a l =>
    have key : ∀ (l : List ℝ) (a : ℝ), (l.foldl min a = a ∨ l.foldl min a ∈ l) ∧ l.foldl min a ≤ a ∧ ∀ x ∈ l, l.foldl min a ≤ x := by
      intro l
      induction l with
      | nil => intro a; simp
      | cons b l ih =>
        intro a
        obtain ⟨h1, h2, h3⟩ := ih (min a b)
        rw [List.foldl_cons]
        refine ⟨?_, h2.trans (min_le_left _ _), ?_⟩
        · rcases h1 with h1 | h1
          · rw [h1]
            rcases min_choice a b with h | h <;> rw [h] <;> simp
          · exact Or.inr (List.mem_cons_of_mem _ h1)
        · intro x hx
          rcases List.mem_cons.1 hx with rfl | hx
          · exact h2.trans (min_le_right _ _)
          · exact h3 x hx
    obtain ⟨h1, h2, h3⟩ := key l a
    refine ⟨l.foldl min a, ?_, rfl, ?_⟩
    · rcases h1 with h1 | h1
      · rw [h1]
        exact List.mem_cons_self
      · exact List.mem_cons_of_mem _ h1
    · intro x hx
      rcases List.mem_cons.1 hx with rfl | hx
      · exact h2
      · exact h3 x hx

/-- For any polygon without edges of length zero: the distance to the nearest point of the outline, negative if the point is not
to the right of any edge. -/
theorem signedDistance_spec (q : P) {poly : List P} (hne : poly ≠ []) (hlen : ∀ e ∈ edges poly, e.1 ≠ e.2) :
    ∃ m : ℝ, (∃ e ∈ edges poly, ∃ z, OnEdge e z ∧ norm (q - z) = m) ∧ (∀ e ∈ edges poly, ∀ z, OnEdge e z → m ≤ norm (q - z)) ∧
      ((∀ e ∈ edges poly, 0 ≤ cross (e.2 - e.1) (q - e.1)) → signedDistance q poly = some (-m)) ∧
      ((∃ e ∈ edges poly, cross (e.2 - e.1) (q - e.1) < 0) → signedDistance q poly = some m) := by
  have hn : ∀ e ∈ edges poly, norm (e.2 - e.1) ≠ 0 := by
    intro e he h
    apply hlen e he
    have := norm_eq_zero.1 h
    ext
    · have := congrArg Prod.fst this
      simp only [Prod.fst_sub] at this
      linarith
    · have := congrArg Prod.snd this
      simp only [Prod.snd_sub] at this
      linarith
  have h1 : (edges poly).mapM (perp q) =
      some ((edges poly).map fun e => -(cross (e.2 - e.1) (q - e.1) / norm (e.2 - e.1))) :=
    mapM_some_iff.2 (by
      rw [List.forall₂_map_right_iff, List.forall₂_same]
      exact fun e he => perp_eq q (hn e he))
  have h2 : (edges poly).mapM (edgeDistance q) = some ((edges poly).map fun e =>
      if 0 ≤ dot (e.2 - e.1) (q - e.1) / norm (e.2 - e.1) ^ 2 ∧ dot (e.2 - e.1) (q - e.1) / norm (e.2 - e.1) ^ 2 ≤ 1 then
      some (|cross (e.2 - e.1) (q - e.1)| / norm (e.2 - e.1)) else none) :=
    mapM_some_iff.2 (by
      rw [List.forall₂_map_right_iff, List.forall₂_same]
      exact fun e he => edgeDistance_eq q (hn e he))
  set ds := ((edges poly).map fun e =>
      if 0 ≤ dot (e.2 - e.1) (q - e.1) / norm (e.2 - e.1) ^ 2 ∧ dot (e.2 - e.1) (q - e.1) / norm (e.2 - e.1) ^ 2 ≤ 1 then
      some (|cross (e.2 - e.1) (q - e.1)| / norm (e.2 - e.1)) else none) with hds
  obtain ⟨m, hm, hleast, hmin⟩ := least_spec (l := ds.filterMap id ++ poly.map fun v => norm (q - v)) (by simp [hne])
  have hval : signedDistance q poly =
      some (if ∀ d ∈ (edges poly).map fun e => -(cross (e.2 - e.1) (q - e.1) / norm (e.2 - e.1)), d ≤ 0 then -m else m) := by
    unfold signedDistance
    rw [h1, Option.bind_eq_bind, Option.bind_some, h2, Option.bind_eq_bind, Option.bind_some, hleast]
    rfl
  have hpos : ∀ e ∈ edges poly, 0 < norm (e.2 - e.1) := fun e he => lt_of_le_of_ne (norm_nonneg _) (Ne.symm (hn e he))
  refine ⟨m, ?_, ?_, ?_, ?_⟩
  · rcases List.mem_append.1 hm with h | h
    · obtain ⟨x, hx, rfl⟩ := List.mem_filterMap.1 h
      obtain ⟨e, he, hxe⟩ := List.mem_map.1 hx
      split at hxe
      · rename_i hr
        refine ⟨e, he, _, ⟨_, hr.1, hr.2, rfl⟩, ?_⟩
        have := Option.some.inj hxe
        rw [← this]
        have hL := norm_sq (e.2 - e.1)
        have hp := hpos e he
        apply norm_eq_of_sq (by positivity)
        rw [div_pow, sq_abs]
        simp only [cross, dot, Prod.fst_sub, Prod.snd_sub] at hL ⊢
        generalize norm (e.2 - e.1) = L at *
        field_simp
        rw [hL]
        ring
      · simp at hxe
    · obtain ⟨v, hv, rfl⟩ := List.mem_map.1 h
      obtain ⟨e, he, rfl⟩ := mem_edges_fst hv
      refine ⟨e, he, e.1, ⟨0, le_refl _, zero_le_one, ?_⟩, rfl⟩
      simp
  · rintro e he z ⟨t, ht0, ht1, rfl⟩
    have hp := hpos e he
    have hL := norm_sq (e.2 - e.1)
    have hv1 : m ≤ norm (q - e.1) := hmin _ (List.mem_append_right _ (List.mem_map.2 ⟨e.1, by
      rw [← edges_fst poly]
      exact List.mem_map_of_mem he, rfl⟩))
    have hv2 : m ≤ norm (q - e.2) := hmin _ (List.mem_append_right _ (List.mem_map.2 ⟨e.2, edges_snd he, rfl⟩))
    by_cases hr : 0 ≤ dot (e.2 - e.1) (q - e.1) / norm (e.2 - e.1) ^ 2 ∧ dot (e.2 - e.1) (q - e.1) / norm (e.2 - e.1) ^ 2 ≤ 1
    · refine (hmin (|cross (e.2 - e.1) (q - e.1)| / norm (e.2 - e.1)) (List.mem_append_left _ (List.mem_filterMap.2
        ⟨some (|cross (e.2 - e.1) (q - e.1)| / norm (e.2 - e.1)), List.mem_map.2 ⟨e, he, if_pos hr⟩, rfl⟩))).trans ?_
      apply le_norm_of_sq
      rw [div_pow, sq_abs, div_le_iff₀ (by positivity)]
      rw [hL]
      simp only [cross, Prod.fst_sub, Prod.snd_sub]
      nlinarith [sq_nonneg ((e.2.1 - e.1.1) * (q.1 - (e.1.1 + t * (e.2.1 - e.1.1))) +
        (e.2.2 - e.1.2) * (q.2 - (e.1.2 + t * (e.2.2 - e.1.2))))]
    · by_cases hneg : dot (e.2 - e.1) (q - e.1) < 0
      · refine hv1.trans (norm_le_norm ?_)
        simp only [dot, Prod.fst_sub, Prod.snd_sub] at hneg ⊢
        nlinarith [mul_nonneg ht0 (neg_nonneg.2 hneg.le), sq_nonneg (t * (e.2.1 - e.1.1)), sq_nonneg (t * (e.2.2 - e.1.2))]
      · have hbig : norm (e.2 - e.1) ^ 2 < dot (e.2 - e.1) (q - e.1) := by
          by_contra hle
          apply hr
          exact ⟨div_nonneg (not_lt.1 hneg) (by positivity), (div_le_one (by positivity)).2 (not_lt.1 hle)⟩
        refine hv2.trans (norm_le_norm ?_)
        rw [hL] at hbig
        simp only [dot, Prod.fst_sub, Prod.snd_sub] at hbig ⊢
        nlinarith [mul_nonneg (sub_nonneg.2 ht1) (sub_nonneg.2 hbig.le), sq_nonneg ((1 - t) * (e.2.1 - e.1.1)),
          sq_nonneg ((1 - t) * (e.2.2 - e.1.2))]
  · intro h
    rw [hval, if_pos]
    intro d hd
    obtain ⟨e, he, rfl⟩ := List.mem_map.1 hd
    have := div_nonneg (h e he) (hpos e he).le
    linarith
  · rintro ⟨e, he, h⟩
    rw [hval, if_neg]
    intro hall
    have := hall _ (List.mem_map.2 ⟨e, he, rfl⟩)
    have := div_neg_of_neg_of_pos h (hpos e he)
    linarith

end Verif.Planar
