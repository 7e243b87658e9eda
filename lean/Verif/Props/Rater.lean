import Verif.Model.Rater
import Mathlib.Order.Bounds.Basic
import Mathlib.Tactic

/-!
Properties C36 (padding of rated trajectories) and C37 (the rater feedback score).
-/

namespace Verif.Rater

/-! ### C36: padding -/

/-- C36: entry `i` of the result is entry `i` of the input, or its last entry if there is none. -/
theorem padTo_spec {α : Type} {target : ℕ} {l : List α} (h : l ≠ [] ∨ target = 0) : ∃ out, padTo target l = some out ∧
    out.length = target ∧ ∀ i < target, out[i]? = l[min i (l.length - 1)]? := by
  unfold padTo
  by_cases h1 : l.length > target
  · rw [if_pos h1]
    refine ⟨_, rfl, by rw [List.length_take]; omega, fun i hi => ?_⟩
    rw [List.getElem?_take, if_pos hi]
    congr 1
    omega
  · rw [if_neg h1]
    by_cases h2 : l.length < target
    · rw [if_pos h2]
      have hne : l ≠ [] := by
        rcases h with h | h
        · exact h
        · omega
      have hpos : 0 < l.length := List.length_pos_of_ne_nil hne
      rw [List.getLast?_eq_getLast_of_ne_nil hne]
      refine ⟨_, rfl, by simp; omega, fun i hi => ?_⟩
      by_cases h3 : i < l.length
      · rw [List.getElem?_append_left h3]
        congr 1
        omega
      · rw [List.getElem?_append_right (by omega), List.getElem?_replicate, if_pos (by omega),
          show min i (l.length - 1) = l.length - 1 by omega, ← List.getLast?_eq_getElem?,
          List.getLast?_eq_getLast_of_ne_nil hne]
    · rw [if_neg h2]
      refine ⟨l, rfl, by omega, fun i hi => ?_⟩
      congr 1
      omega

/-- C36: there is nothing to repeat in an empty list. -/
theorem padTo_empty {α : Type} {target : ℕ} (h : 0 < target) : padTo target ([] : List α) = none := by
  unfold padTo
  simp [h]

theorem mapM_padTo {α : Type} {w : ℕ} (ts : List (List α)) (h : ∀ t ∈ ts, t ≠ [] ∨ w = 0) : ∃ out, ts.mapM (padTo w) = some out ∧
    out.length = ts.length ∧ ∀ (i : ℕ) (t : List α), ts[i]? = some t → ∃ t', out[i]? = some t' ∧ padTo w t = some t' := by
  induction ts with
  | nil => exact ⟨[], rfl, rfl, fun i t h => by simp at h⟩
  | cons t rest ih =>
    obtain ⟨out, h1, h2, h3⟩ := ih fun x hx => h x (List.mem_cons_of_mem _ hx)
    obtain ⟨t', ht, _⟩ := padTo_spec (h t List.mem_cons_self)
    refine ⟨t' :: out, ?_, by simp [h2], ?_⟩
    · rw [List.mapM_cons, ht, h1]
      rfl
    · intro i x hi
      cases i with
      | zero =>
        have : t = x := by simpa using hi
        subst this
        exact ⟨t', rfl, ht⟩
      | succ i =>
        have := h3 i x (by simpa using hi)
        simpa using this

/-- C36: the shape is as documented; entry `i` is the trajectory at position `i`, or the last one, cut off or extended by its
last point; the label at position `i` is the label of the same trajectory. -/
theorem processOne_spec {α β : Type} {w n : ℕ} {ts : List (List α)} {labels : List β} (hl : ts.length = labels.length)
    (hts : ts ≠ [] ∨ n = 0) (hw : ∀ t ∈ ts, t ≠ [] ∨ w = 0) : ∃ out ls, processOne w n ts labels = some (out, ls) ∧
      out.length = n ∧ ls.length = n ∧ (∀ t ∈ out, t.length = w) ∧
      ∀ i < n, ∃ t o, ts[min i (ts.length - 1)]? = some t ∧ out[i]? = some o ∧ ls[i]? = labels[min i (ts.length - 1)]? ∧
        ∀ j < w, o[j]? = t[min j (t.length - 1)]? := by
  have hls : labels ≠ [] ∨ n = 0 := by
    rcases hts with h | h
    · left
      intro hc
      rw [hc, List.length_nil] at hl
      exact h (List.length_eq_zero_iff.mp hl)
    · exact Or.inr h
  obtain ⟨p, hp, hp1, hp2⟩ := padTo_spec hts
  obtain ⟨ls, hq, hq1, hq2⟩ := padTo_spec hls
  have hpm : ∀ t ∈ p, t ∈ ts := by
    intro t ht
    obtain ⟨i, hi⟩ := List.getElem?_of_mem ht
    have hlt : i < n := by
      by_contra hc
      rw [List.getElem?_eq_none (by omega)] at hi
      simp at hi
    rw [hp2 i hlt] at hi
    exact List.mem_of_getElem? hi
  obtain ⟨out, ho, ho1, ho2⟩ := mapM_padTo p fun t ht => hw t (hpm t ht)
  refine ⟨out, ls, ?_, by omega, hq1, ?_, ?_⟩
  · unfold processOne
    rw [if_neg (by simpa using hl)]
    simp only [hp, hq, ho, Option.bind_eq_bind, Option.bind_some, Option.pure_def]
  · intro t ht
    obtain ⟨i, hi⟩ := List.getElem?_of_mem ht
    have hlt : i < p.length := by
      by_contra hc
      rw [List.getElem?_eq_none (by omega)] at hi
      simp at hi
    obtain ⟨t', h1, h2⟩ := ho2 i _ (List.getElem?_eq_getElem hlt)
    rw [hi, Option.some.injEq] at h1
    subst h1
    obtain ⟨u, hu, hu1, _⟩ := padTo_spec (hw _ (hpm _ (List.getElem_mem hlt)))
    rw [h2, Option.some.injEq] at hu
    rw [hu, hu1]
  · intro i hi
    have hlt : i < p.length := by omega
    obtain ⟨t', h1, h2⟩ := ho2 i _ (List.getElem?_eq_getElem hlt)
    refine ⟨p[i], t', ?_, h1, ?_, ?_⟩
    · rw [← hp2 i hi, List.getElem?_eq_getElem hlt]
    · rw [hq2 i hi, hl]
    · obtain ⟨u, hu, _, hu2⟩ := padTo_spec (hw _ (hpm _ (List.getElem_mem hlt)))
      rw [h2, Option.some.injEq] at hu
      subst hu
      exact hu2

/-- C36: trajectories and labels that do not belong together are refused. -/
theorem processOne_mismatch {α β : Type} {w n : ℕ} {ts : List (List α)} {labels : List β} (hl : ts.length ≠ labels.length) :
    processOne w n ts labels = none := by
  unfold processOne
  rw [if_pos hl]

/-- C36: batches are processed independently of each other and keep their order. -/
theorem process_spec {α β : Type} {w n : ℕ} {ts : List (List (List α))} {labels : List (List β)}
    {out : List (List (List α))} {ls : List (List β)} : process w n ts labels = some (out, ls) ↔
      ts.length = labels.length ∧ out.length = ts.length ∧ ls.length = ts.length ∧
      ∀ i < ts.length, processOne w n (ts.getD i []) (labels.getD i []) = some (out.getD i [], ls.getD i []) := by
  have key : ∀ (ts : List (List (List α))) (labels : List (List β)), ts.length = labels.length → ∀ r : List (List (List α) × List β),
      (ts.zip labels).mapM (fun x => processOne w n x.1 x.2) = some r ↔ r.length = ts.length ∧
        ∀ i < ts.length, processOne w n (ts.getD i []) (labels.getD i []) = some (r.getD i ([], [])) := by
    intro ts
    induction ts with
    | nil =>
      intro labels _ r
      simp only [List.zip_nil_left, List.mapM_nil, Option.pure_def, Option.some.injEq, List.length_nil]
      constructor
      · rintro rfl
        exact ⟨rfl, fun i hi => absurd hi (Nat.not_lt_zero _)⟩
      · rintro ⟨h, _⟩
        exact (List.length_eq_zero_iff.mp h).symm
    | cons t ts ih =>
      intro labels hl r
      cases labels with
      | nil => simp at hl
      | cons l labels =>
        rw [List.zip_cons_cons, List.mapM_cons]
        constructor
        · intro h
          cases hx : processOne w n t l with
          | none => rw [hx] at h; simp at h
          | some y =>
            cases hr : (ts.zip labels).mapM (fun x => processOne w n x.1 x.2) with
            | none => rw [hx, hr] at h; simp at h
            | some ys =>
              rw [hx, hr] at h
              simp only [Option.bind_eq_bind, Option.bind_some, Option.pure_def, Option.some.injEq] at h
              subst h
              obtain ⟨h1, h2⟩ := (ih labels (by simpa using hl) ys).mp hr
              refine ⟨by simp [h1], fun i hi => ?_⟩
              cases i with
              | zero => simpa using hx
              | succ i => simpa using h2 i (by simpa using hi)
        · rintro ⟨h1, h2⟩
          cases r with
          | nil => simp at h1
          | cons y ys =>
            have h0 := h2 0 (by simp)
            simp only [List.getD_cons_zero] at h0
            have hr := (ih labels (by simpa using hl) ys).mpr ⟨by simpa using h1, fun i hi => by
              have := h2 (i + 1) (by simpa using hi)
              simpa using this⟩
            rw [h0, hr]
            rfl
  unfold process
  by_cases hl : ts.length = labels.length
  · rw [if_neg (by simpa using hl)]
    constructor
    · intro h
      cases hr : (ts.zip labels).mapM (fun x => processOne w n x.1 x.2) with
      | none => rw [hr] at h; simp at h
      | some r =>
        rw [hr] at h
        simp only [Option.bind_eq_bind, Option.bind_some, Option.pure_def, Option.some.injEq, Prod.mk.injEq] at h
        obtain ⟨rfl, rfl⟩ := h
        obtain ⟨h1, h2⟩ := (key ts labels hl r).mp hr
        refine ⟨hl, by simp [h1], by simp [h1], fun i hi => ?_⟩
        rw [h2 i hi]
        have hlt : i < r.length := by omega
        simp [List.getD_eq_getElem?_getD, List.getElem?_eq_getElem hlt]
    · rintro ⟨_, h1, h2, h3⟩
      have hr := (key ts labels hl (out.zip ls)).mpr ⟨by simp [h1, h2], fun i hi => by
        rw [h3 i hi]
        have hlt1 : i < out.length := by omega
        have hlt2 : i < ls.length := by omega
        have hlt3 : i < (out.zip ls).length := by simp; omega
        simp [List.getD_eq_getElem?_getD, List.getElem?_eq_getElem hlt1, List.getElem?_eq_getElem hlt2,
          List.getElem?_eq_getElem hlt3]⟩
      rw [hr]
      simp only [Option.bind_eq_bind, Option.bind_some, Option.pure_def, Option.some.injEq, Prod.mk.injEq]
      exact ⟨List.map_fst_zip (by omega), List.map_snd_zip (by omega)⟩
  · rw [if_pos hl]
    constructor
    · intro h
      simp at h
    · rintro ⟨h, _⟩
      exact absurd h hl

/-- C36: a case with a long and a short trajectory. -/
theorem example_process : processOne 3 3 [[1, 2, 3, 4], [5]] [10, 20] = some ([[1, 2, 3], [5, 5, 5], [5, 5, 5]], [10, 20, 20]) := rfl

/-! ### C37: directions -/

/-- The step a trajectory that starts at the origin makes to reach its point `k`. -/
noncomputable def step (t : List Pt) : ℕ → Pt
  | 0 => t.getD 0 0
  | k + 1 => t.getD (k + 1) 0 - t.getD k 0

/-- The direction of travel: of the last step that is not zero, and (1, 0) before any. -/
noncomputable def heading (t : List Pt) : ℕ → Pt
  | 0 => if step t 0 = 0 then (1, 0) else (1 / Real.sqrt ((step t 0).1 ^ 2 + (step t 0).2 ^ 2)) • step t 0
  | k + 1 => if step t (k + 1) = 0 then heading t k
    else (1 / Real.sqrt ((step t (k + 1)).1 ^ 2 + (step t (k + 1)).2 ^ 2)) • step t (k + 1)

theorem norm_eq_zero {p : Pt} : norm p = 0 ↔ p = 0 := by
  unfold norm
  rw [Real.sqrt_eq_zero (by positivity)]
  constructor
  · intro h
    have h1 : p.1 = 0 := by nlinarith [sq_nonneg p.1, sq_nonneg p.2]
    have h2 : p.2 = 0 := by nlinarith [sq_nonneg p.1, sq_nonneg p.2]
    exact Prod.ext h1 h2
  · rintro rfl
    simp

theorem normalise_unit {d : Pt} (h : d ≠ 0) : (normalise d).1 ^ 2 + (normalise d).2 ^ 2 = 1 := by
  have hn : norm d ≠ 0 := fun hc => h (norm_eq_zero.mp hc)
  have hs : norm d ^ 2 = d.1 ^ 2 + d.2 ^ 2 := by
    unfold norm
    rw [Real.sq_sqrt (by positivity)]
  unfold normalise
  dsimp only
  rw [div_pow, div_pow, ← add_div, ← hs]
  exact div_self (pow_ne_zero 2 hn)

theorem normalise_smul (d : Pt) : normalise d = (1 / Real.sqrt (d.1 ^ 2 + d.2 ^ 2)) • d := by
  unfold normalise norm
  ext
  · simp [div_eq_inv_mul]
  · simp [div_eq_inv_mul]

theorem heading_unit (t : List Pt) (k : ℕ) : (heading t k).1 ^ 2 + (heading t k).2 ^ 2 = 1 := by
  induction k with
  | zero =>
    unfold heading
    split
    · norm_num
    · next h =>
      rw [← normalise_smul]
      exact normalise_unit h
  | succ k ih =>
    unfold heading
    split
    · exact ih
    · next h =>
      rw [← normalise_smul]
      exact normalise_unit h

theorem displacements_getElem {t : List Pt} {k : ℕ} (h : k < t.length) : (displacements t)[k]? = some (step t k) := by
  unfold displacements
  rw [List.getElem?_zipWith, List.getElem?_eq_getElem h]
  cases k with
  | zero =>
    simp only [List.getElem?_cons_zero, step, List.getD_eq_getElem?_getD, List.getElem?_eq_getElem h, Option.getD_some, sub_zero]
  | succ k =>
    have hk : k < t.length := by omega
    simp only [List.getElem?_cons_succ, List.getElem?_eq_getElem hk, step, List.getD_eq_getElem?_getD,
      List.getElem?_eq_getElem h, Option.getD_some]
    rfl

/-- The direction before it is normalised. -/
noncomputable def raw (prev : Pt) (ds : ℕ → Pt) : ℕ → Pt
  | 0 => if norm (ds 0) = 0 then prev else ds 0
  | k + 1 => if norm (ds (k + 1)) = 0 then raw prev ds k else ds (k + 1)

theorem raw_shift (prev : Pt) (ds : ℕ → Pt) (k : ℕ) :
    raw prev ds (k + 1) = raw (raw prev ds 0) (fun i => ds (i + 1)) k := by
  induction k with
  | zero => rfl
  | succ k ih =>
    show (if norm (ds (k + 2)) = 0 then raw prev ds (k + 1) else ds (k + 2)) = _
    rw [ih]
    rfl

theorem carry_getElem (prev : Pt) (l : List Pt) (k : ℕ) (h : k < l.length) :
    (carry prev l)[k]? = some (raw prev (fun i => l.getD i 0) k) := by
  induction l generalizing prev k with
  | nil => simp at h
  | cons d rest ih =>
    unfold carry
    cases k with
    | zero => rfl
    | succ k =>
      rw [List.getElem?_cons_succ, ih _ k (by simpa using h), raw_shift]
      rfl

theorem raw_ne (prev : Pt) (hp : prev ≠ 0) (ds : ℕ → Pt) (k : ℕ) : raw prev ds k ≠ 0 := by
  induction k with
  | zero =>
    unfold raw
    split
    · exact hp
    · next h => exact fun hc => h (norm_eq_zero.mpr hc)
  | succ k ih =>
    unfold raw
    split
    · exact ih
    · next h => exact fun hc => h (norm_eq_zero.mpr hc)

theorem raw_heading (t : List Pt) (k : ℕ) (h : k < t.length) :
    normalise (raw (1, 0) (fun i => (displacements t).getD i 0) k) = heading t k := by
  have hd : ∀ i < t.length, (displacements t).getD i 0 = step t i := fun i hi => by
    rw [List.getD_eq_getElem?_getD, displacements_getElem hi, Option.getD_some]
  induction k with
  | zero =>
    unfold raw heading
    rw [hd 0 h]
    by_cases h0 : step t 0 = 0
    · rw [if_pos (norm_eq_zero.mpr h0), if_pos h0]
      unfold normalise norm
      simp
    · rw [if_neg fun hc => h0 (norm_eq_zero.mp hc), if_neg h0, normalise_smul]
  | succ k ih =>
    unfold raw heading
    rw [hd (k + 1) h]
    by_cases h0 : step t (k + 1) = 0
    · rw [if_pos (norm_eq_zero.mpr h0), if_pos h0, ih (by omega)]
    · rw [if_neg fun hc => h0 (norm_eq_zero.mp hc), if_neg h0, normalise_smul]

/-- The distance along the direction of travel. -/
noncomputable def along (rated inference : List Pt) (k : ℕ) : ℝ :=
  |(heading rated k).1 * (inference.getD k 0 - rated.getD k 0).1 + (heading rated k).2 * (inference.getD k 0 - rated.getD k 0).2|

/-- The distance across the direction of travel. -/
noncomputable def across (rated inference : List Pt) (k : ℕ) : ℝ :=
  |(heading rated k).1 * (inference.getD k 0 - rated.getD k 0).2 - (heading rated k).2 * (inference.getD k 0 - rated.getD k 0).1|

/-- C37: the two distances are along and across the direction of travel, also where the rated trajectory stands still. -/
theorem distances_spec {rated inference : List Pt} {k : ℕ} (h1 : k < rated.length) (h2 : k < inference.length) :
    distances rated inference k = some (along rated inference k, across rated inference k) := by
  have hl : (displacements rated).length = rated.length := by
    unfold displacements
    rw [List.length_zipWith, List.length_cons]
    omega
  have hc := carry_getElem (1, 0) (displacements rated) k (by omega)
  have hu := raw_heading rated k h1
  set e := raw (1, 0) (fun i => (displacements rated).getD i 0) k with he
  have hn : norm (e.2 * -1, e.1) = norm e := by
    unfold norm
    congr 1
    ring
  have e1 : (lngDirections rated)[k]? = some (heading rated k) := by
    unfold lngDirections
    rw [List.getElem?_map, hc, Option.map_some, hu]
  have e2 : (latDirections rated)[k]? = some (-(heading rated k).2, (heading rated k).1) := by
    unfold latDirections
    rw [List.getElem?_map, List.getElem?_map, hc, Option.map_some, Option.map_some, ← hu]
    unfold normalise
    rw [hn]
    congr 2
    ring
  unfold distances
  rw [List.getElem?_eq_getElem h1, List.getElem?_eq_getElem h2, e1, e2]
  simp only [Option.bind_eq_bind, Option.bind_some, Option.pure_def, Option.some.injEq, Prod.mk.injEq]
  unfold projection along across
  simp only [List.getD_eq_getElem?_getD, List.getElem?_eq_getElem h1, List.getElem?_eq_getElem h2, Option.getD_some,
    Prod.fst_sub, Prod.snd_sub]
  refine ⟨trivial, ?_⟩
  congr 1
  ring

/-- C37: the two distances make up the distance. -/
theorem along_across (rated inference : List Pt) (k : ℕ) : along rated inference k ^ 2 + across rated inference k ^ 2 =
    (inference.getD k 0 - rated.getD k 0).1 ^ 2 + (inference.getD k 0 - rated.getD k 0).2 ^ 2 := by
  have hu := heading_unit rated k
  unfold along across
  rw [sq_abs, sq_abs]
  generalize heading rated k = u at hu
  generalize inference.getD k 0 - rated.getD k 0 = v
  have : (u.1 * v.1 + u.2 * v.2) ^ 2 + (u.1 * v.2 - u.2 * v.1) ^ 2 = (u.1 ^ 2 + u.2 ^ 2) * (v.1 ^ 2 + v.2 ^ 2) := by ring
  rw [this, hu, one_mul]

/-! ### C37: thresholds -/

/-- C37: thresholds are halved up to 1.4 m/s, full from 11 m/s, and grow with the speed in between. -/
theorem speedScale_spec (v : ℝ) : (v ≤ 14 / 10 → speedScale v = 1 / 2) ∧ (11 ≤ v → speedScale v = 1) ∧
    1 / 2 ≤ speedScale v ∧ speedScale v ≤ 1 ∧ ∀ v', v ≤ v' → speedScale v ≤ speedScale v' := by
  unfold speedScale clip
  refine ⟨fun h => ?_, fun h => ?_, ?_, min_le_right _ _, fun v' h => ?_⟩
  · rw [max_eq_right, min_eq_left] <;> [norm_num; skip]
    have : (1 / 2 * (v - 14 / 10)) / (11 - 14 / 10) ≤ 0 := div_nonpos_of_nonpos_of_nonneg (by linarith) (by norm_num)
    linarith
  · rw [min_eq_right]
    refine le_max_of_le_left ?_
    have : 1 / 2 ≤ (1 / 2 * (v - 14 / 10)) / (11 - 14 / 10) := by
      rw [le_div_iff₀ (by norm_num)]
      linarith
    linarith
  · exact le_min (le_max_right _ _) (by norm_num)
  · refine min_le_min_right _ (max_le_max_right _ ?_)
    have : (1 / 2 * (v - 14 / 10)) / (11 - 14 / 10) ≤ (1 / 2 * (v' - 14 / 10)) / (11 - 14 / 10) :=
      div_le_div_of_nonneg_right (by linarith) (by norm_num)
    linarith

/-- How far an inference is from a rated trajectory at a time, in multiples of the trust region with the given base size. -/
noncomputable def offset (c : Config) (speed size : ℝ) (rated inference : List Pt) (k : ℕ) : ℝ :=
  max (along rated inference k / (speedScale speed * (size * c.multipliers.2)))
    (across rated inference k / (speedScale speed * (size * c.multipliers.1)))

/-- The offsets at three and five seconds. -/
noncomputable def offsets (c : Config) (speed : ℝ) (rated inference : List Pt) : ℝ × ℝ :=
  (offset c speed 1 rated inference (3 * c.frequency - 1), offset c speed (9 / 5) rated inference (5 * c.frequency - 1))

theorem normalised_spec {c : Config} {speed : ℝ} {rated inference : List Pt} (hf : 0 < c.frequency)
    (h1 : 5 * c.frequency ≤ rated.length) (h2 : 5 * c.frequency ≤ inference.length) :
    normalised c speed rated inference = some [(offsets c speed rated inference).1, (offsets c speed rated inference).2] := by
  have e3 := distances_spec (rated := rated) (inference := inference) (k := 3 * c.frequency - 1) (by omega) (by omega)
  have e5 := distances_spec (rated := rated) (inference := inference) (k := 5 * c.frequency - 1) (by omega) (by omega)
  unfold normalised times thresholds base
  simp only [List.map_cons, List.map_nil, List.zip_cons_cons, List.zip_nil_right, List.mapM_cons, List.mapM_nil, e3, e5,
    Option.bind_eq_bind, Option.bind_some, Option.pure_def]
  rfl

/-- C37: within the trust region: the distances along and across are at most the thresholds. -/
theorem offset_le_one {c : Config} (hm1 : 0 < c.multipliers.1) (hm2 : 0 < c.multipliers.2) {speed size : ℝ} (hs : 0 < size)
    (rated inference : List Pt) (k : ℕ) : offset c speed size rated inference k ≤ 1 ↔
      along rated inference k ≤ speedScale speed * (size * c.multipliers.2) ∧
      across rated inference k ≤ speedScale speed * (size * c.multipliers.1) := by
  have hsp : 0 < speedScale speed := by
    have := (speedScale_spec speed).2.2.1
    linarith
  unfold offset
  rw [max_le_iff, div_le_one (by positivity), div_le_one (by positivity)]

/-! ### C37: scores -/

/-- A rated trajectory as the score sees it: the label and the offsets at three and five seconds. -/
abbrev Rating := ℝ × (ℝ × ℝ)

/-- The label of a rated trajectory, lowered by the decay for every trust region the inference is off. -/
noncomputable def worth (c : Config) (label d : ℝ) : ℝ := label * c.decay ^ max (d - 1) 0

/-- The score of an inference in words: at both times the best worth of any rated trajectory, their mean, and at least the floor
if there is no rated trajectory whose trust region the inference is in at both times. -/
def IsScore (c : Config) (xs : List Rating) (within : Bool) (s : ℝ) : Prop :=
  ∃ m3 m5, IsGreatest {y | ∃ x ∈ xs, y = worth c x.1 x.2.1} m3 ∧ IsGreatest {y | ∃ x ∈ xs, y = worth c x.1 x.2.2} m5 ∧
    (within = true ↔ ∃ x ∈ xs, x.2.1 ≤ 1 ∧ x.2.2 ≤ 1) ∧ s = if within then (m3 + m5) / 2 else max c.floor ((m3 + m5) / 2)

theorem isScore_unique {c : Config} {xs : List Rating} {w w' : Bool} {s s' : ℝ} (h : IsScore c xs w s) (h' : IsScore c xs w' s') :
    w = w' ∧ s = s' := by
  obtain ⟨m3, m5, h3, h5, hw, hs⟩ := h
  obtain ⟨n3, n5, g3, g5, gw, gs⟩ := h'
  have e1 := h3.unique g3
  have e2 := h5.unique g5
  have e3 : w = w' := by
    rw [Bool.eq_iff_iff, hw, gw]
  subst e1 e2 e3
  exact ⟨rfl, hs.trans gs.symm⟩

/-- C37: the score depends on the set of rated trajectories only: neither on their order nor on repetitions. -/
theorem isScore_congr {c : Config} {xs ys : List Rating} (h : ∀ x, x ∈ xs ↔ x ∈ ys) {w : Bool} {s : ℝ} :
    IsScore c xs w s ↔ IsScore c ys w s := by
  unfold IsScore
  simp only [h]

theorem foldl_max_isGreatest (l : List ℝ) (a : ℝ) : IsGreatest {y | y = a ∨ y ∈ l} (l.foldl max a) := by
  induction l generalizing a with
  | nil => exact ⟨Or.inl rfl, fun y hy => by rcases hy with rfl | hy <;> [exact le_refl _; simp at hy]⟩
  | cons x rest ih =>
    obtain ⟨h1, h2⟩ := ih (max a x)
    refine ⟨?_, ?_⟩
    · rw [List.foldl_cons]
      rcases h1 with h1 | h1
      · rw [h1]
        rcases max_choice a x with h | h
        · exact Or.inl h
        · right
          rw [h]
          exact List.mem_cons_self
      · exact Or.inr (List.mem_cons_of_mem _ h1)
    · intro y hy
      rw [List.foldl_cons]
      have hm : max a x ≤ rest.foldl max (max a x) := h2 (Or.inl rfl)
      rcases hy with rfl | hy
      · exact (le_max_left _ _).trans hm
      · rcases List.mem_cons.mp hy with rfl | hy
        · exact (le_max_right _ _).trans hm
        · exact h2 (Or.inr hy)

theorem amax_spec {l : List ℝ} (h : l ≠ []) : ∃ m, amax l = some m ∧ IsGreatest {y | y ∈ l} m := by
  cases l with
  | nil => exact absurd rfl h
  | cons x rest =>
    refine ⟨_, rfl, ?_⟩
    have := foldl_max_isGreatest rest x
    simpa [List.mem_cons] using this

/-- The ratings of an inference. -/
noncomputable def ratings (c : Config) (speed : ℝ) (rated : List (List Pt)) (labels : List ℝ) (inference : List Pt) : List Rating :=
  List.zipWith (fun r l => (l, offsets c speed r inference)) rated labels

theorem mapM_normalised {c : Config} {speed : ℝ} {inference : List Pt} (hf : 0 < c.frequency)
    (h2 : 5 * c.frequency ≤ inference.length) (rated : List (List Pt)) (h1 : ∀ r ∈ rated, 5 * c.frequency ≤ r.length) :
    rated.mapM (fun r => normalised c speed r inference) =
      some (rated.map fun r => [(offsets c speed r inference).1, (offsets c speed r inference).2]) := by
  induction rated with
  | nil => rfl
  | cons r rest ih =>
    rw [List.mapM_cons, normalised_spec hf (h1 r List.mem_cons_self) h2, ih fun x hx => h1 x (List.mem_cons_of_mem _ hx)]
    rfl

/-- C37: the score of an inference exists and is as described. -/
theorem inferenceScore_spec {c : Config} {speed : ℝ} {rated : List (List Pt)} {labels : List ℝ} {inference : List Pt}
    (hf : 0 < c.frequency) (hne : rated ≠ []) (hl : rated.length = labels.length)
    (h1 : ∀ r ∈ rated, 5 * c.frequency ≤ r.length) (h2 : 5 * c.frequency ≤ inference.length) :
    ∃ s w, inferenceScore c speed rated labels inference = some (s, w) ∧
      IsScore c (ratings c speed rated labels inference) w s := by
  set ds := rated.map fun r => [(offsets c speed r inference).1, (offsets c speed r inference).2] with hds
  have hz : ∀ k : ℕ, List.zipWith (fun (d : List ℝ) label => decayed c label (d.getD k 0)) ds labels =
      (ratings c speed rated labels inference).map fun x => decayed c x.1 (([x.2.1, x.2.2] : List ℝ).getD k 0) := by
    intro k
    rw [hds]
    unfold ratings
    rw [List.zipWith_map_left, List.map_zipWith]
  have hrne : ratings c speed rated labels inference ≠ [] := by
    intro hc
    have : (ratings c speed rated labels inference).length = 0 := by rw [hc]; rfl
    unfold ratings at this
    rw [List.length_zipWith, ← hl, min_self] at this
    exact hne (List.length_eq_zero_iff.mp this)
  have hne' : ∀ k : ℕ, (ratings c speed rated labels inference).map
      (fun x => decayed c x.1 (([x.2.1, x.2.2] : List ℝ).getD k 0)) ≠ [] := fun k => by simpa using hrne
  obtain ⟨m3, e3, g3⟩ := amax_spec (hne' 0)
  obtain ⟨m5, e5, g5⟩ := amax_spec (hne' 1)
  refine ⟨if ds.any allWithin then (m3 + m5) / 2 else max c.floor ((m3 + m5) / 2), ds.any allWithin, ?_, m3, m5, ?_, ?_, ?_, rfl⟩
  · unfold inferenceScore
    rw [mapM_normalised hf h2 rated h1, ← hds]
    simp only [Option.bind_eq_bind, Option.bind_some]
    have hr : List.range times.length = [0, 1] := rfl
    rw [hr]
    simp only [List.mapM_cons, List.mapM_nil, hz, e3, e5, Option.bind_eq_bind, Option.bind_some, Option.pure_def,
      List.sum_cons, List.sum_nil, add_zero]
    have : ((times.length : ℕ) : ℝ) = 2 := by
      unfold times
      norm_num
    rw [this]
  · have : {y | ∃ x ∈ ratings c speed rated labels inference, y = worth c x.1 x.2.1} =
        {y | y ∈ (ratings c speed rated labels inference).map fun x => decayed c x.1 (([x.2.1, x.2.2] : List ℝ).getD 0 0)} := by
      ext y
      simp only [Set.mem_setOf_eq, List.mem_map, List.getD_cons_zero]
      constructor
      · rintro ⟨x, hx, rfl⟩
        exact ⟨x, hx, rfl⟩
      · rintro ⟨x, hx, rfl⟩
        exact ⟨x, hx, rfl⟩
    rw [this]
    exact g3
  · have : {y | ∃ x ∈ ratings c speed rated labels inference, y = worth c x.1 x.2.2} =
        {y | y ∈ (ratings c speed rated labels inference).map fun x => decayed c x.1 (([x.2.1, x.2.2] : List ℝ).getD 1 0)} := by
      ext y
      simp only [Set.mem_setOf_eq, List.mem_map]
      constructor
      · rintro ⟨x, hx, rfl⟩
        exact ⟨x, hx, rfl⟩
      · rintro ⟨x, hx, rfl⟩
        exact ⟨x, hx, rfl⟩
    rw [this]
    exact g5
  · rw [hds, List.any_map, List.any_eq_true]
    unfold ratings
    constructor
    · rintro ⟨r, hr, hw⟩
      obtain ⟨i, hi⟩ := List.getElem?_of_mem hr
      have hlt : i < rated.length := by
        by_contra hc
        rw [List.getElem?_eq_none (by omega)] at hi
        simp at hi
      have hlt' : i < labels.length := by omega
      refine ⟨(labels[i], offsets c speed r inference), List.mem_of_getElem? (i := i) ?_, ?_⟩
      · rw [List.getElem?_zipWith, hi, List.getElem?_eq_getElem hlt']
      · simpa [allWithin] using hw
    · rintro ⟨x, hx, hw⟩
      obtain ⟨i, hi⟩ := List.getElem?_of_mem hx
      rw [List.getElem?_zipWith] at hi
      cases hr : rated[i]? with
      | none => rw [hr] at hi; simp at hi
      | some r =>
        cases hlab : labels[i]? with
        | none => rw [hr, hlab] at hi; simp at hi
        | some lab =>
          rw [hr, hlab] at hi
          simp only [Option.some.injEq] at hi
          subst hi
          refine ⟨r, List.mem_of_getElem? hr, ?_⟩
          simpa [allWithin] using hw

theorem worth_le {c : Config} (hd : 0 ≤ c.decay) (hd1 : c.decay ≤ 1) {l : ℝ} (hl : 0 ≤ l) (d : ℝ) :
    0 ≤ worth c l d ∧ worth c l d ≤ l := by
  have h1 := Real.rpow_nonneg hd (max (d - 1) 0)
  have h2 := Real.rpow_le_one hd hd1 (le_max_right (d - 1) 0)
  unfold worth
  exact ⟨mul_nonneg hl h1, mul_le_of_le_one_right hl h2⟩

/-- Within the trust region the label is not lowered. -/
theorem worth_inside (c : Config) (l : ℝ) {d : ℝ} (h : d ≤ 1) : worth c l d = l := by
  unfold worth
  rw [max_eq_right (by linarith), Real.rpow_zero, mul_one]

/-- The label is lowered more further away. -/
theorem worth_anti {c : Config} (hd : 0 < c.decay) (hd1 : c.decay ≤ 1) {l : ℝ} (hl : 0 ≤ l) {d d' : ℝ} (h : d ≤ d') :
    worth c l d' ≤ worth c l d := by
  unfold worth
  refine mul_le_mul_of_nonneg_left ?_ hl
  exact Real.rpow_le_rpow_of_exponent_ge hd hd1 (max_le_max_right _ (by linarith))

/-- C37: with labels between 0 and `top`, and a floor in that range, the score is in that range. -/
theorem isScore_bounds {c : Config} (hd : 0 ≤ c.decay) (hd1 : c.decay ≤ 1) {top : ℝ} (hf0 : 0 ≤ c.floor) (hf : c.floor ≤ top)
    {xs : List Rating} (hx : ∀ x ∈ xs, 0 ≤ x.1 ∧ x.1 ≤ top) {w : Bool} {s : ℝ} (h : IsScore c xs w s) : 0 ≤ s ∧ s ≤ top := by
  obtain ⟨m3, m5, ⟨⟨x, hx3, rfl⟩, _⟩, ⟨⟨y, hy5, rfl⟩, _⟩, _, rfl⟩ := h
  have h1 := worth_le hd hd1 (hx x hx3).1 x.2.1
  have h2 := worth_le hd hd1 (hx y hy5).1 y.2.2
  have h3 := (hx x hx3).2
  have h4 := (hx y hy5).2
  split
  · constructor <;> linarith
  · exact ⟨le_max_of_le_left hf0, max_le hf (by linarith)⟩

/-- C37: outside all trust regions the score is at least the floor. -/
theorem isScore_outside {c : Config} {xs : List Rating} {s : ℝ} (h : IsScore c xs false s) : c.floor ≤ s := by
  obtain ⟨m3, m5, _, _, _, rfl⟩ := h
  exact le_max_left _ _

/-- C37: inside the trust region of a rated trajectory at both times the score is at least its label. -/
theorem isScore_inside {c : Config} {xs : List Rating} {w : Bool} {s : ℝ} (h : IsScore c xs w s) {x : Rating} (hx : x ∈ xs)
    (h3 : x.2.1 ≤ 1) (h5 : x.2.2 ≤ 1) : w = true ∧ x.1 ≤ s := by
  obtain ⟨m3, m5, ⟨_, g3⟩, ⟨_, g5⟩, hw, rfl⟩ := h
  have hw' : w = true := hw.mpr ⟨x, hx, h3, h5⟩
  have e3 : x.1 ≤ m3 := by
    have := g3 ⟨x, hx, rfl⟩
    rwa [worth_inside c _ h3] at this
  have e5 : x.1 ≤ m5 := by
    have := g5 ⟨x, hx, rfl⟩
    rwa [worth_inside c _ h5] at this
  rw [if_pos hw']
  exact ⟨hw', by linarith⟩

theorem forall₂_mem_left {α β : Type} {R : α → β → Prop} {l : List α} {m : List β} (h : List.Forall₂ R l m) {a : α} (ha : a ∈ l) :
    ∃ b ∈ m, R a b := by
  induction h with
  | nil => simp at ha
  | cons hr _ ih =>
    rcases List.mem_cons.mp ha with rfl | ha
    · exact ⟨_, List.mem_cons_self, hr⟩
    · obtain ⟨b, hb, hr'⟩ := ih ha
      exact ⟨b, List.mem_cons_of_mem _ hb, hr'⟩

/-- The same rated trajectories, none of them further away. -/
def Closer (xs ys : List Rating) : Prop := List.Forall₂ (fun x y => x.1 = y.1 ∧ y.2.1 ≤ x.2.1 ∧ y.2.2 ≤ x.2.2) xs ys

/-- C37: a prediction that is closer to all rated trajectories has a score at least as high, provided it does not enter a trust
region, or no label is below the floor.  In general this does not hold: `score_closer_violated`. -/
theorem isScore_closer_partial {c : Config} (hd : 0 < c.decay) (hd1 : c.decay ≤ 1) {xs ys : List Rating}
    (hx : ∀ x ∈ xs, 0 ≤ x.1) (hc : Closer xs ys) {w w' : Bool} {s s' : ℝ} (h : IsScore c xs w s) (h' : IsScore c ys w' s')
    (hw : w = w' ∨ ∀ x ∈ ys, c.floor ≤ x.1) : s ≤ s' := by
  have hin := fun (y : Rating) (hy : y ∈ ys) (h1 : y.2.1 ≤ 1) (h2 : y.2.2 ≤ 1) => isScore_inside h' hy h1 h2
  obtain ⟨m3, m5, ⟨⟨x3, hx3, e3⟩, _⟩, ⟨⟨x5, hx5, e5⟩, _⟩, hw1, hs⟩ := h
  obtain ⟨n3, n5, ⟨_, g3⟩, ⟨_, g5⟩, hw2, hs'⟩ := h'
  have le3 : m3 ≤ n3 := by
    obtain ⟨y, hy, r1, r2, _⟩ := forall₂_mem_left hc hx3
    rw [e3]
    refine (worth_anti hd hd1 (hx x3 hx3) r2).trans ?_
    rw [r1]
    exact g3 ⟨y, hy, rfl⟩
  have le5 : m5 ≤ n5 := by
    obtain ⟨y, hy, r1, _, r2⟩ := forall₂_mem_left hc hx5
    rw [e5]
    refine (worth_anti hd hd1 (hx x5 hx5) r2).trans ?_
    rw [r1]
    exact g5 ⟨y, hy, rfl⟩
  have hmean : (m3 + m5) / 2 ≤ (n3 + n5) / 2 := by linarith
  cases w' with
  | true =>
    rw [if_pos rfl] at hs'
    cases w with
    | true =>
      rw [if_pos rfl] at hs
      rw [hs, hs']
      exact hmean
    | false =>
      rw [if_neg (by simp)] at hs
      rcases hw with hw | hw
      · simp at hw
      · obtain ⟨y, hy, h1, h2⟩ := hw2.mp rfl
        have := (hin y hy h1 h2).2
        have := hw y hy
        rw [hs]
        refine max_le (by linarith) ?_
        rw [hs']
        exact hmean
  | false =>
    rw [if_neg (by simp)] at hs'
    cases w with
    | true =>
      obtain ⟨x, hx', h1, h2⟩ := hw1.mp rfl
      obtain ⟨y, hy, _, r1, r2⟩ := forall₂_mem_left hc hx'
      have := hw2.mpr ⟨y, hy, r1.trans h1, r2.trans h2⟩
      simp at this
    | false =>
      rw [if_neg (by simp)] at hs
      rw [hs, hs']
      exact max_le_max_left _ hmean

/-! ### The score of the batch element -/

theorem mapM_scores {c : Config} {speed : ℝ} {rated : List (List Pt)} {labels : List ℝ} (hf : 0 < c.frequency) (hne : rated ≠ [])
    (hl : rated.length = labels.length) (h1 : ∀ r ∈ rated, 5 * c.frequency ≤ r.length) (infs : List (List Pt))
    (h2 : ∀ i ∈ infs, 5 * c.frequency ≤ i.length) : ∃ out, infs.mapM (fun i => inferenceScore c speed rated labels i) = some out ∧
      List.Forall₂ (fun i (s : ℝ × Bool) => IsScore c (ratings c speed rated labels i) s.2 s.1) infs out := by
  induction infs with
  | nil => exact ⟨[], rfl, List.Forall₂.nil⟩
  | cons i rest ih =>
    obtain ⟨out, e, hf2⟩ := ih fun x hx => h2 x (List.mem_cons_of_mem _ hx)
    obtain ⟨s, w, hs, hi⟩ := inferenceScore_spec (speed := speed) hf hne hl h1 (h2 i List.mem_cons_self)
    refine ⟨(s, w) :: out, ?_, List.Forall₂.cons hi hf2⟩
    rw [List.mapM_cons, hs, e]
    rfl

theorem mem_ratings {c : Config} {speed : ℝ} {rated : List (List Pt)} {labels : List ℝ} {i : List Pt} {x : Rating} :
    x ∈ ratings c speed rated labels i ↔ ∃ (k : ℕ) (r : List Pt) (l : ℝ), rated[k]? = some r ∧ labels[k]? = some l ∧
      x = (l, offsets c speed r i) := by
  unfold ratings
  constructor
  · intro h
    obtain ⟨k, hk⟩ := List.getElem?_of_mem h
    rw [List.getElem?_zipWith] at hk
    cases hr : rated[k]? with
    | none => rw [hr] at hk; simp at hk
    | some r =>
      cases hl : labels[k]? with
      | none => rw [hr, hl] at hk; simp at hk
      | some l =>
        rw [hr, hl] at hk
        simp only [Option.some.injEq] at hk
        exact ⟨k, r, l, hr, hl, hk.symm⟩
  · rintro ⟨k, r, l, hr, hl, rfl⟩
    refine List.mem_of_getElem? (i := k) ?_
    rw [List.getElem?_zipWith, hr, hl]

/-- What a call needs. -/
structure Valid (c : Config) (inferences : List (List Pt)) (probs : List ℝ) (rated : List (List Pt)) (labels : List ℝ) : Prop where
  frequency : 0 < c.frequency
  seconds : 5 ≤ c.seconds
  ratedPos : 0 < c.rated
  some : rated ≠ []
  labelled : rated.length = labels.length
  points : ∀ r ∈ rated, r ≠ []
  steps : ∀ i ∈ inferences, i.length = c.seconds * c.frequency
  weighted : inferences.length = probs.length

/-- C37: the score is the sum of the scores of the inferences with their probabilities; the score of an inference is that with
respect to the rated trajectories, brought to the right length. -/
theorem score_spec {c : Config} {inferences : List (List Pt)} {probs : List ℝ} {rated : List (List Pt)} {labels : List ℝ}
    (hv : Valid c inferences probs rated labels) (speed : ℝ) : ∃ out : List (ℝ × Bool), ∃ ts ls,
      score c inferences probs rated labels speed =
        some ((List.zipWith (fun x p => x * p) (out.map Prod.fst) probs).sum, out.map Prod.snd) ∧
      processOne (c.seconds * c.frequency) c.rated rated labels = some (ts, ls) ∧
      List.Forall₂ (fun i (s : ℝ × Bool) => IsScore c (ratings c speed ts ls i) s.2 s.1) inferences out := by
  obtain ⟨ts, ls, hp, h1, h2, h3, _⟩ := processOne_spec (w := c.seconds * c.frequency) (n := c.rated) hv.labelled (Or.inl hv.some)
    fun t ht => Or.inl (hv.points t ht)
  have hlen : 5 * c.frequency ≤ c.seconds * c.frequency := Nat.mul_le_mul_right _ hv.seconds
  have hne : ts ≠ [] := by
    intro hc
    rw [hc] at h1
    have := hv.ratedPos
    simp at h1
    omega
  obtain ⟨out, ho, hf⟩ := mapM_scores (speed := speed) hv.frequency hne (h1.trans h2.symm) (fun r hr => by rw [h3 r hr]; exact hlen)
    inferences fun i hi => by rw [hv.steps i hi]; exact hlen
  refine ⟨out, ts, ls, ?_, hp, hf⟩
  unfold score
  rw [hp]
  simp only [Option.bind_eq_bind, Option.bind_some]
  rw [if_neg, if_neg (by omega), if_neg (by simpa using hv.weighted), ho]
  · rfl
  · simp only [List.any_eq_true, decide_eq_true_eq, not_exists, not_and, not_not]
    exact hv.steps

/-- C36 and C37: padding the list of rated trajectories does not change the score: with no more trajectories than wanted, the
ratings are those of the trajectories given. -/
theorem ratings_padding {c : Config} {w n : ℕ} {rated ts : List (List Pt)} {labels ls : List ℝ}
    (hl : rated.length = labels.length) (hr : rated ≠ []) (hw : ∀ t ∈ rated, t ≠ []) (hn : rated.length ≤ n)
    (hp : processOne w n rated labels = some (ts, ls)) (speed : ℝ) (i : List Pt) (x : Rating) :
    x ∈ ratings c speed ts ls i ↔ ∃ (k : ℕ) (r : List Pt) (l : ℝ) (r' : List Pt), rated[k]? = some r ∧ labels[k]? = some l ∧
      padTo w r = some r' ∧ x = (l, offsets c speed r' i) := by
  obtain ⟨out, ls', he, h1, h2, h3, h4⟩ := processOne_spec (w := w) (n := n) hl (Or.inl hr) fun t ht => Or.inl (hw t ht)
  rw [hp] at he
  simp only [Option.some.injEq, Prod.mk.injEq] at he
  obtain ⟨rfl, rfl⟩ := he
  have hpad : ∀ k < n, ∀ t o, rated[min k (rated.length - 1)]? = some t → ts[k]? = some o →
      (∀ j < w, o[j]? = t[min j (t.length - 1)]?) → padTo w t = some o := by
    intro k hk t o ht ho hj
    obtain ⟨u, hu, hu1, hu2⟩ := padTo_spec (target := w) (Or.inl (hw t (List.mem_of_getElem? ht)))
    rw [hu]
    congr 1
    have hlen : o.length = w := h3 o (List.mem_of_getElem? ho)
    refine List.ext_getElem? fun j => ?_
    by_cases hlt : j < w
    · rw [hu2 j hlt, hj j hlt]
    · rw [List.getElem?_eq_none (by omega), List.getElem?_eq_none (by omega)]
  rw [mem_ratings]
  constructor
  · rintro ⟨k, r, l, hr', hl', rfl⟩
    have hk : k < n := by
      by_contra hc
      rw [List.getElem?_eq_none (by omega)] at hr'
      simp at hr'
    obtain ⟨t, o, e1, e2, e3, e4⟩ := h4 k hk
    rw [hr', Option.some.injEq] at e2
    subst e2
    rw [hl'] at e3
    exact ⟨_, t, l, r, e1, e3.symm, hpad k hk t r e1 hr' e4, rfl⟩
  · rintro ⟨k, r, l, r', hr', hl', hp', rfl⟩
    have hk : k < rated.length := by
      by_contra hc
      rw [List.getElem?_eq_none (by omega)] at hr'
      simp at hr'
    obtain ⟨t, o, e1, e2, e3, e4⟩ := h4 k (by omega)
    have := hpad k (by omega) t o e1 e2 e4
    rw [show min k (rated.length - 1) = k by omega] at e1 e3
    rw [hr', Option.some.injEq] at e1
    subst e1
    rw [hp', Option.some.injEq] at this
    subst this
    exact ⟨k, r', l, e2, e3.trans hl', rfl⟩

theorem weighted_bounds {c : Config} {infs : List (List Pt)} {f : List Pt → List Rating} {out : List (ℝ × Bool)} {probs : List ℝ}
    (h : List.Forall₂ (fun i (s : ℝ × Bool) => IsScore c (f i) s.2 s.1) infs out) (hl : infs.length = probs.length)
    (hp : ∀ p ∈ probs, 0 ≤ p) {lo hi : ℝ} (hb : ∀ i ∈ infs, ∀ w s, IsScore c (f i) w s → lo ≤ s ∧ s ≤ hi) :
    lo * probs.sum ≤ (List.zipWith (fun x p => x * p) (out.map Prod.fst) probs).sum ∧
      (List.zipWith (fun x p => x * p) (out.map Prod.fst) probs).sum ≤ hi * probs.sum := by
  induction h generalizing probs with
  | nil =>
    cases probs with
    | nil => simp
    | cons p rest => simp at hl
  | @cons i s infs out hs _ ih =>
    cases probs with
    | nil => simp at hl
    | cons p probs =>
      obtain ⟨h1, h2⟩ := ih (by simpa using hl) (fun x hx => hp x (List.mem_cons_of_mem _ hx))
        fun i hi => hb i (List.mem_cons_of_mem _ hi)
      obtain ⟨h3, h4⟩ := hb i List.mem_cons_self _ _ hs
      have hpn := hp p List.mem_cons_self
      simp only [List.map_cons, List.zipWith_cons_cons, List.sum_cons]
      have := mul_le_mul_of_nonneg_right h3 hpn
      have := mul_le_mul_of_nonneg_right h4 hpn
      constructor <;> nlinarith

/-- C37: with labels between 0 and 10, a floor in that range, a decay between 0 and 1 and probabilities that add to one, the
score is between 0 and 10. -/
theorem score_bounds {c : Config} {inferences : List (List Pt)} {probs : List ℝ} {rated : List (List Pt)} {labels : List ℝ}
    (hv : Valid c inferences probs rated labels) (hd : 0 ≤ c.decay) (hd1 : c.decay ≤ 1) (hf0 : 0 ≤ c.floor) (hf : c.floor ≤ 10)
    (hlab : ∀ l ∈ labels, 0 ≤ l ∧ l ≤ 10) (hp : ∀ p ∈ probs, 0 ≤ p) (hp1 : probs.sum = 1) (speed : ℝ) {s : ℝ} {w : List Bool}
    (h : score c inferences probs rated labels speed = some (s, w)) : 0 ≤ s ∧ s ≤ 10 := by
  obtain ⟨out, ts, ls, e, hpr, hf2⟩ := score_spec hv speed
  rw [h, Option.some.injEq, Prod.mk.injEq] at e
  have hls : ∀ l ∈ ls, l ∈ labels := by
    obtain ⟨out', ls', he, _, h2, _, h4⟩ := processOne_spec (w := c.seconds * c.frequency) (n := c.rated) hv.labelled (Or.inl hv.some)
      fun t ht => Or.inl (hv.points t ht)
    rw [hpr, Option.some.injEq, Prod.mk.injEq] at he
    obtain ⟨_, rfl⟩ := he
    intro l hl
    obtain ⟨k, hk⟩ := List.getElem?_of_mem hl
    have hlt : k < c.rated := by
      by_contra hc
      rw [List.getElem?_eq_none (by omega)] at hk
      simp at hk
    obtain ⟨_, _, _, _, e3, _⟩ := h4 k hlt
    rw [hk] at e3
    exact List.mem_of_getElem? e3.symm
  obtain ⟨h1, h2⟩ := weighted_bounds (lo := 0) (hi := 10) hf2 hv.weighted hp fun i _ w s hs =>
    isScore_bounds hd hd1 hf0 hf (fun x hx => by
      obtain ⟨_, _, l, _, hl, rfl⟩ := mem_ratings.mp hx
      exact hlab l (hls l (List.mem_of_getElem? hl))) hs
  rw [hp1] at h1 h2
  rw [e.1]
  constructor <;> linarith

/-- C37: if no inference is in a trust region, the score is at least the floor. -/
theorem score_outside {c : Config} {inferences : List (List Pt)} {probs : List ℝ} {rated : List (List Pt)} {labels : List ℝ}
    (hv : Valid c inferences probs rated labels) (hp : ∀ p ∈ probs, 0 ≤ p) (hp1 : probs.sum = 1) (speed : ℝ) {s : ℝ} {w : List Bool}
    (h : score c inferences probs rated labels speed = some (s, w)) (hw : ∀ b ∈ w, b = false) : c.floor ≤ s := by
  obtain ⟨out, ts, ls, e, _, hf2⟩ := score_spec hv speed
  rw [h, Option.some.injEq, Prod.mk.injEq] at e
  obtain ⟨rfl, rfl⟩ := e
  have key : ∀ (infs : List (List Pt)) (out : List (ℝ × Bool)) (probs : List ℝ),
      List.Forall₂ (fun i (s : ℝ × Bool) => IsScore c (ratings c speed ts ls i) s.2 s.1) infs out → infs.length = probs.length →
      (∀ p ∈ probs, 0 ≤ p) → (∀ b ∈ out.map Prod.snd, b = false) →
      c.floor * probs.sum ≤ (List.zipWith (fun x p => x * p) (out.map Prod.fst) probs).sum := by
    intro infs out probs h
    induction h generalizing probs with
    | nil =>
      intro hl _ _
      cases probs with
      | nil => simp
      | cons p rest => simp at hl
    | @cons i s infs out hs _ ih =>
      intro hl hp hw
      cases probs with
      | nil => simp at hl
      | cons p probs =>
        have h1 := ih probs (by simpa using hl) (fun x hx => hp x (List.mem_cons_of_mem _ hx))
          fun b hb => hw b (by rw [List.map_cons]; exact List.mem_cons_of_mem _ hb)
        have hsb : s.2 = false := hw s.2 (by rw [List.map_cons]; exact List.mem_cons_self)
        rw [hsb] at hs
        have h2 := mul_le_mul_of_nonneg_right (isScore_outside hs) (hp p List.mem_cons_self)
        simp only [List.map_cons, List.zipWith_cons_cons, List.sum_cons]
        nlinarith
  have := key inferences out probs hf2 hv.weighted hp hw
  rwa [hp1, mul_one] at this

/-! ### The floor makes the score fall on entering a trust region -/

/-- The default configuration at 4 Hz. -/
noncomputable def defaults : Config := ⟨(1, 4), 1 / 10, 4, 5, 3, 4⟩

/-- A rated trajectory, or an inference, that stays at a point of the x axis. -/
noncomputable def stay (x : ℝ) : List Pt := List.replicate 20 (x, 0)

theorem stay_getD (x : ℝ) {k : ℕ} (h : k < 20) : (stay x).getD k 0 = (x, 0) := by
  unfold stay
  rw [List.getD_eq_getElem?_getD, List.getElem?_replicate, if_pos h, Option.getD_some]

theorem stay_step {k : ℕ} (h : k < 20) : step (stay 0) k = 0 := by
  cases k with
  | zero => exact stay_getD 0 h
  | succ k =>
    show (stay 0).getD (k + 1) 0 - (stay 0).getD k 0 = 0
    rw [stay_getD 0 h, stay_getD 0 (by omega), sub_self]

theorem stay_heading {k : ℕ} (h : k < 20) : heading (stay 0) k = (1, 0) := by
  induction k with
  | zero =>
    unfold heading
    rw [if_pos (stay_step h)]
  | succ k ih =>
    unfold heading
    rw [if_pos (stay_step h), ih (by omega)]

theorem stay_along (x : ℝ) {k : ℕ} (h : k < 20) : along (stay 0) (stay x) k = |x| ∧ across (stay 0) (stay x) k = 0 := by
  unfold along across
  rw [stay_heading h, stay_getD 0 h, stay_getD x h]
  simp

theorem stay_offsets (x : ℝ) : offsets defaults 0 (stay 0) (stay x) = (|x| / 2, |x| / (18 / 5)) := by
  have hs := (speedScale_spec 0).1 (by norm_num)
  obtain ⟨a3, c3⟩ := stay_along x (k := 11) (by norm_num)
  obtain ⟨a5, c5⟩ := stay_along x (k := 19) (by norm_num)
  unfold offsets offset
  have e3 : 3 * defaults.frequency - 1 = 11 := rfl
  have e5 : 5 * defaults.frequency - 1 = 19 := rfl
  rw [e3, e5, a3, c3, a5, c5, hs]
  simp only [defaults, zero_div]
  have hx := abs_nonneg x
  rw [max_eq_left (by positivity), max_eq_left (by positivity)]
  norm_num

theorem stay_valid (x : ℝ) : Valid defaults [stay x] [1] [stay 0] [0] := by
  refine ⟨by norm_num [defaults], by norm_num [defaults], by norm_num [defaults], by simp, rfl, ?_, ?_, rfl⟩
  · intro r hr
    rw [List.mem_singleton.mp hr]
    simp [stay]
  · intro r hr
    rw [List.mem_singleton.mp hr]
    simp [stay, defaults]

theorem stay_score (x : ℝ) : ∃ s w, score defaults [stay x] [1] [stay 0] [0] 0 = some (s, [w]) ∧
    IsScore defaults [(0, (|x| / 2, |x| / (18 / 5)))] w s := by
  obtain ⟨out, ts, ls, e, hp, hf⟩ := score_spec (stay_valid x) 0
  have hp' : processOne (defaults.seconds * defaults.frequency) defaults.rated [stay 0] [(0 : ℝ)] =
      some ([stay 0, stay 0, stay 0], [0, 0, 0]) := by
    have hpad : padTo 20 (stay 0) = some (stay 0) := by
      unfold padTo stay
      simp
    have e1 : defaults.seconds * defaults.frequency = 20 := rfl
    have e2 : defaults.rated = 3 := rfl
    have e3 : padTo 3 [stay 0] = some [stay 0, stay 0, stay 0] := rfl
    have e4 : padTo 3 [(0 : ℝ)] = some [0, 0, 0] := rfl
    unfold processOne
    rw [e1, e2, if_neg (by simp)]
    simp only [e3, e4, Option.bind_eq_bind, Option.bind_some, List.mapM_cons, List.mapM_nil, hpad, Option.pure_def]
  rw [hp', Option.some.injEq, Prod.mk.injEq] at hp
  obtain ⟨rfl, rfl⟩ := hp
  cases hf with
  | @cons _ s _ out hs hrest =>
    cases hrest
    refine ⟨s.1, s.2, ?_, ?_⟩
    · rw [e]
      simp
    · refine (isScore_congr ?_).mp hs
      intro y
      simp [ratings, stay_offsets]

/-- C37 does not hold in full: of two predictions against a rated trajectory with label 0, the one 100 m away scores 4 and the
one that is in exactly the same place scores 0. -/
theorem score_closer_violated : score defaults [stay 100] [1] [stay 0] [0] 0 = some (4, [false]) ∧
    score defaults [stay 0] [1] [stay 0] [0] 0 = some (0, [true]) := by
  constructor
  · obtain ⟨s, w, e, m3, m5, ⟨⟨x, hx, h3⟩, _⟩, ⟨⟨y, hy, h5⟩, _⟩, hw, hs⟩ := stay_score 100
    rw [List.mem_singleton] at hx hy
    subst hx hy
    have hw' : w = false := by
      rw [← Bool.not_eq_true, hw]
      simp
      norm_num
    rw [e, hs, hw', h3, h5]
    simp [worth, defaults]
  · obtain ⟨s, w, e, m3, m5, ⟨⟨x, hx, h3⟩, _⟩, ⟨⟨y, hy, h5⟩, _⟩, hw, hs⟩ := stay_score 0
    rw [List.mem_singleton] at hx hy
    subst hx hy
    have hw' : w = true := by
      rw [hw]
      simp
    rw [e, hs, hw', h3, h5]
    simp [worth]

end Verif.Rater
