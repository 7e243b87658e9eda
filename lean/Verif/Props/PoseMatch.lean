import Verif.Props.PoseMetric
import Verif.Props.PoseReorder
import Mathlib.Data.Set.Finite.List

/-!
Properties C32 (an association uses no object twice), C72 (what the second stage of the matching minimises) and C74 (associated
objects are close to each other).

`linear_sum_assignment` of SciPy is a parameter that has its documented property, `LsaSpec`; `exists_lsa` shows that there is
such a function.
-/

namespace Verif.Pose

open Verif.Boxes

/-- Pairs of rows and columns below the given numbers, none used twice. -/
structure Matching (rows cols : ℕ) (m : List (ℕ × ℕ)) : Prop where
  rowsNodup : (m.map Prod.fst).Nodup
  colsNodup : (m.map Prod.snd).Nodup
  range : ∀ x ∈ m, x.1 < rows ∧ x.2 < cols

def totalCost (cost : ℕ → ℕ → ℝ) (m : List (ℕ × ℕ)) : ℝ := (m.map fun x => cost x.1 x.2).sum

/-- What SciPy documents: as many pairs as possible, with the lowest possible total cost. -/
def LsaSpec (lsa : Lsa) : Prop := ∀ rows cols cost,
  (Matching rows cols (lsa rows cols cost) ∧ (lsa rows cols cost).length = min rows cols) ∧
  ∀ m, Matching rows cols m → m.length = min rows cols → totalCost cost (lsa rows cols cost) ≤ totalCost cost m

theorem matching_finite (rows cols n : ℕ) : {m | Matching rows cols m ∧ m.length = n}.Finite := by
  have hf : {l : List (Fin rows × Fin cols) | l.length = n}.Finite := List.finite_length_eq _ _
  refine (hf.image (List.map fun x => (x.1.val, x.2.val))).subset ?_
  rintro m ⟨hm, hl⟩
  refine ⟨m.attach.map fun x => (⟨x.1.1, (hm.range x.1 x.2).1⟩, ⟨x.1.2, (hm.range x.1 x.2).2⟩), by simpa using hl, ?_⟩
  rw [List.map_map]
  conv_rhs => rw [← List.attach_map_subtype_val m]
  rfl

theorem matching_diagonal (rows cols : ℕ) :
    Matching rows cols ((List.range (min rows cols)).map fun i => (i, i)) := by
  refine ⟨?_, ?_, ?_⟩
  · rw [List.map_map]
    exact (List.map_id _).symm ▸ List.nodup_range
  · rw [List.map_map]
    exact (List.map_id _).symm ▸ List.nodup_range
  · intro x hx
    obtain ⟨i, hi, rfl⟩ := List.mem_map.mp hx
    rw [List.mem_range] at hi
    exact ⟨lt_of_lt_of_le hi (min_le_left _ _), lt_of_lt_of_le hi (min_le_right _ _)⟩

/-- There is a function with the documented property. -/
theorem exists_lsa : ∃ lsa, LsaSpec lsa := by
  have h : ∀ rows cols cost, ∃ m, (Matching rows cols m ∧ m.length = min rows cols) ∧
      ∀ m', Matching rows cols m' → m'.length = min rows cols → totalCost cost m ≤ totalCost cost m' := by
    intro rows cols cost
    obtain ⟨m, hm, hmin⟩ := Set.exists_min_image _ (totalCost cost) (matching_finite rows cols (min rows cols))
      ⟨_, matching_diagonal rows cols, by simp⟩
    exact ⟨m, hm, fun m' h1 h2 => hmin m' ⟨h1, h2⟩⟩
  choose f hf using h
  exact ⟨f, fun r c k => hf r c k⟩

theorem matching_sublist {rows cols : ℕ} {m m' : List (ℕ × ℕ)} (h : Matching rows cols m) (hs : m'.Sublist m) :
    Matching rows cols m' :=
  ⟨h.rowsNodup.sublist (hs.map _), h.colsNodup.sublist (hs.map _), fun x hx => h.range x (hs.subset hx)⟩

theorem hungarian_matching {lsa : Lsa} (hl : LsaSpec lsa) (rows cols : ℕ) (cost : ℕ → ℕ → ℝ) (maximize : Bool) (keep : ℝ → Prop) :
    Matching rows cols (hungarian lsa rows cols cost maximize keep) :=
  matching_sublist (hl rows cols _).1.1 List.filter_sublist

theorem hungarian_keep {lsa : Lsa} {rows cols : ℕ} {cost : ℕ → ℕ → ℝ} {maximize : Bool} {keep : ℝ → Prop} {x : ℕ × ℕ}
    (h : x ∈ hungarian lsa rows cols cost maximize keep) : keep (cost x.1 x.2) := by
  have := (List.mem_filter.mp h).2
  simpa using this

/-! ### A matching can be completed -/

theorem exists_unused {l : List ℕ} {n : ℕ} (h : l.length < n) : ∃ i < n, i ∉ l := by
  by_contra hc
  push Not at hc
  have hs : Finset.range n ⊆ l.toFinset := fun i hi => by
    rw [List.mem_toFinset]
    exact hc i (Finset.mem_range.mp hi)
  have h1 := Finset.card_le_card hs
  rw [Finset.card_range] at h1
  have h2 := List.toFinset_card_le l
  omega

theorem matching_length {rows cols : ℕ} {m : List (ℕ × ℕ)} (h : Matching rows cols m) : m.length ≤ min rows cols := by
  have key : ∀ (l : List ℕ) (n : ℕ), l.Nodup → (∀ x ∈ l, x < n) → l.length ≤ n := by
    intro l n hn hr
    have hs : l.toFinset ⊆ Finset.range n := fun x hx => Finset.mem_range.mpr (hr x (List.mem_toFinset.mp hx))
    have := Finset.card_le_card hs
    rwa [List.toFinset_card_of_nodup hn, Finset.card_range] at this
  refine le_min ?_ ?_
  · have := key _ rows h.rowsNodup (by
      intro x hx
      obtain ⟨y, hy, rfl⟩ := List.mem_map.mp hx
      exact (h.range y hy).1)
    simpa using this
  · have := key _ cols h.colsNodup (by
      intro x hx
      obtain ⟨y, hy, rfl⟩ := List.mem_map.mp hx
      exact (h.range y hy).2)
    simpa using this

theorem matching_complete {rows cols : ℕ} {m : List (ℕ × ℕ)} (h : Matching rows cols m) : ∃ extra,
    Matching rows cols (extra ++ m) ∧ (extra ++ m).length = min rows cols := by
  obtain ⟨k, hk⟩ : ∃ k, min rows cols = m.length + k := ⟨_, (Nat.add_sub_cancel' (matching_length h)).symm⟩
  induction k generalizing m with
  | zero => exact ⟨[], h, by simpa using hk.symm⟩
  | succ k ih =>
    obtain ⟨i, hi, hi'⟩ := exists_unused (l := m.map Prod.fst) (n := rows) (by simp; omega)
    obtain ⟨j, hj, hj'⟩ := exists_unused (l := m.map Prod.snd) (n := cols) (by simp; omega)
    have hm : Matching rows cols ((i, j) :: m) := by
      refine ⟨?_, ?_, ?_⟩
      · rw [List.map_cons, List.nodup_cons]
        exact ⟨hi', h.rowsNodup⟩
      · rw [List.map_cons, List.nodup_cons]
        exact ⟨hj', h.colsNodup⟩
      · intro x hx
        rcases List.mem_cons.mp hx with rfl | hx
        · exact ⟨hi, hj⟩
        · exact h.range x hx
    obtain ⟨extra, h1, h2⟩ := ih hm (by simp only [List.length_cons]; omega)
    refine ⟨extra ++ [(i, j)], ?_, ?_⟩ <;> rw [List.append_assoc] <;> assumption

theorem totalCost_append (cost : ℕ → ℕ → ℝ) (a b : List (ℕ × ℕ)) : totalCost cost (a ++ b) = totalCost cost a + totalCost cost b := by
  unfold totalCost
  rw [List.map_append, List.sum_append]

theorem totalCost_le {cost : ℕ → ℕ → ℝ} {c : ℝ} (m : List (ℕ × ℕ)) (h : ∀ x ∈ m, cost x.1 x.2 ≤ c) :
    totalCost cost m ≤ m.length * c := by
  unfold totalCost
  induction m with
  | nil => simp
  | cons x rest ih =>
    have h1 := ih fun y hy => h y (List.mem_cons_of_mem _ hy)
    have h2 := h x List.mem_cons_self
    simp only [List.map_cons, List.sum_cons, List.length_cons, Nat.cast_add, Nat.cast_one]
    linarith

theorem totalCost_filter {cost : ℕ → ℕ → ℝ} {c : ℝ} (hc : ∀ i j, cost i j ≤ c) (m : List (ℕ × ℕ)) [DecidablePred fun x : ℝ => x < c] :
    totalCost cost m = totalCost cost (m.filter fun x => decide (cost x.1 x.2 < c)) +
      ((m.length : ℝ) - (m.filter fun x => decide (cost x.1 x.2 < c)).length) * c := by
  unfold totalCost
  induction m with
  | nil => simp
  | cons x rest ih =>
    simp only [List.map_cons, List.sum_cons, List.length_cons, Nat.cast_add, Nat.cast_one, List.filter_cons]
    rw [ih]
    by_cases hx : cost x.1 x.2 < c
    · simp only [hx, decide_true, if_true, List.map_cons, List.sum_cons, List.length_cons, Nat.cast_add, Nat.cast_one]
      ring
    · have : cost x.1 x.2 = c := le_antisymm (hc _ _) (not_lt.mp hx)
      simp only [hx, decide_false, Bool.false_eq_true, if_false]
      rw [this]
      ring

/-- What a filtered assignment minimises: the cost of the pairs plus `c` for every row left over, over all matchings of any
size. -/
theorem hungarian_optimal {lsa : Lsa} (hl : LsaSpec lsa) {rows cols : ℕ} {cost : ℕ → ℕ → ℝ} {c : ℝ} (hc : ∀ i j, cost i j ≤ c)
    {m : List (ℕ × ℕ)} (hm : Matching rows cols m) :
    totalCost cost (hungarian lsa rows cols cost false fun x => x < c) +
        ((rows : ℝ) - (hungarian lsa rows cols cost false fun x => x < c).length) * c ≤
      totalCost cost m + ((rows : ℝ) - m.length) * c := by
  classical
  obtain ⟨extra, h1, h2⟩ := matching_complete hm
  have ho := (hl rows cols cost).2 _ h1 h2
  have hlen := (hl rows cols cost).1.2
  rw [totalCost_append] at ho
  have he := totalCost_le extra fun x _ => hc x.1 x.2
  have hf := totalCost_filter hc (lsa rows cols cost)
  have heq : hungarian lsa rows cols cost false (fun x => x < c) = (lsa rows cols cost).filter fun x => decide (cost x.1 x.2 < c) := by
    unfold hungarian
    simp only [Bool.false_eq_true, if_false]
  rw [heq]
  have hlen2 : (extra.length : ℝ) + m.length = (lsa rows cols cost).length := by
    rw [hlen, ← h2, List.length_append, Nat.cast_add]
  have hlen3 : (extra.length : ℝ) = (lsa rows cols cost).length - m.length := by linarith
  rw [hlen3] at he
  linarith

/-! ### C72: the mean error -/

/-- The mean error of two objects: what the pose metric counts for each key point, divided by the number of key points. -/
noncomputable def meanError (penalty : ℝ) (g p : List Keypoint) : ℝ :=
  (List.zipWith (fun a b => (pointError penalty a b).1) g p).sum / g.length

theorem clip_id {x hi : ℝ} (h1 : 0 ≤ x) (h2 : x ≤ hi) : clip x 0 hi = x := by
  unfold clip
  rw [min_eq_left h2, max_eq_left h1]

theorem meanError_bounds {penalty : ℝ} (hp : 0 ≤ penalty) {g p : List Keypoint} (hl : g.length = p.length) (hg : 0 < g.length) :
    0 ≤ meanError penalty g p ∧ meanError penalty g p ≤ penalty := by
  have hpos : (0 : ℝ) < g.length := by exact_mod_cast hg
  have hb : ∀ x ∈ List.zipWith (fun a b => (pointError penalty a b).1) g p, 0 ≤ x ∧ x ≤ penalty := by
    intro x hx
    obtain ⟨a, _, b, _, rfl⟩ := mem_zipWith' hx
    exact pointError_bounds hp a b
  have hs := List.sum_le_card_nsmul _ penalty fun x hx => (hb x hx).2
  rw [List.length_zipWith, ← hl, min_self, nsmul_eq_mul] at hs
  unfold meanError
  exact ⟨div_nonneg (List.sum_nonneg fun x hx => (hb x hx).1) hpos.le, (div_le_iff₀ hpos).mpr (by linarith)⟩

theorem pairCost_candidate {penalty : ℝ} (hp : 0 ≤ penalty) {g p : List Keypoint} (hl : g.length = p.length) (hg : 0 < g.length) :
    pairCost penalty true g p = meanError penalty g p := by
  unfold pairCost meanOf
  simp only [if_true, List.length_zipWith, ← hl, min_self]
  exact clip_id (meanError_bounds hp hl hg).1 (meanError_bounds hp hl hg).2

theorem pairCost_other {penalty : ℝ} (hp : 0 ≤ penalty) (hv : penalty ≤ veryLarge) {g p : List Keypoint} (hg : 0 < g.length) :
    pairCost penalty false g p = penalty := by
  have hpos : (g.length : ℝ) ≠ 0 := by
    have : (0 : ℝ) < g.length := by exact_mod_cast hg
    exact this.ne'
  unfold pairCost meanOf clip
  simp only [Bool.false_eq_true, if_false, List.sum_replicate, List.length_replicate, nsmul_eq_mul]
  rw [mul_div_cancel_left₀ _ hpos, min_eq_right hv, max_eq_left hp]

theorem pairCost_le {penalty : ℝ} (hp : 0 ≤ penalty) (c : Bool) (g p : List Keypoint) : pairCost penalty c g p ≤ penalty := by
  unfold pairCost clip
  exact max_le (min_le_right _ _) hp

/-- A penalty below zero leaves nothing to associate. -/
theorem pairCost_negative {penalty : ℝ} (hp : penalty < 0) (c : Bool) (g p : List Keypoint) : ¬ pairCost penalty c g p < penalty := by
  unfold pairCost clip
  rw [not_lt]
  exact hp.le.trans (le_max_right _ _)

theorem getD_mem {l : List Obj} {i : ℕ} (h : i < l.length) : l.getD i default ∈ l := by
  rw [List.getD_eq_getElem?_getD, List.getElem?_eq_getElem h]
  exact List.getElem_mem h

theorem meanErrorMatching_matching {lsa : Lsa} (hl : LsaSpec lsa) (gt pr : List Obj) (candidate : ℕ → ℕ → Bool) (penalty : ℝ) :
    Matching gt.length pr.length (meanErrorMatching lsa gt pr candidate penalty) := by
  unfold meanErrorMatching
  split
  · exact ⟨List.nodup_nil, List.nodup_nil, by simp⟩
  · exact hungarian_matching hl _ _ _ _ _

/-- The second stage only takes candidates, and only with a mean error below the penalty. -/
theorem meanErrorMatching_candidate {lsa : Lsa} (hl : LsaSpec lsa) {gt pr : List Obj} {candidate : ℕ → ℕ → Bool} {penalty : ℝ}
    (hu : uniform gt pr) (hv : penalty ≤ veryLarge) {x : ℕ × ℕ} (hx : x ∈ meanErrorMatching lsa gt pr candidate penalty) :
    0 < penalty ∧ candidate x.1 x.2 = true ∧
      meanError penalty (gt.getD x.1 default).points (pr.getD x.2 default).points < penalty := by
  obtain ⟨n, hn, hg, hp⟩ := hu
  have hr := (meanErrorMatching_matching hl gt pr candidate penalty).range x hx
  have lg := hg _ (getD_mem hr.1)
  have lp := hp _ (getD_mem hr.2)
  have hk : pairCost penalty (candidate x.1 x.2) (gt.getD x.1 default).points (pr.getD x.2 default).points < penalty := by
    unfold meanErrorMatching at hx
    split at hx
    · simp at hx
    · exact hungarian_keep hx
  have hpen : 0 ≤ penalty := by
    by_contra h
    exact pairCost_negative (not_le.mp h) _ _ _ hk
  cases hc : candidate x.1 x.2 with
  | true =>
    rw [hc, pairCost_candidate hpen (lg.trans lp.symm) (by omega)] at hk
    exact ⟨lt_of_le_of_lt (meanError_bounds hpen (lg.trans lp.symm) (by omega)).1 hk, rfl, hk⟩
  | false =>
    rw [hc, pairCost_other hpen hv (by omega)] at hk
    exact absurd hk (lt_irrefl _)

/-- The mean error of the pairs plus the penalty for every ground truth left alone. -/
noncomputable def loss (penalty : ℝ) (gt pr : List Obj) (m : List (ℕ × ℕ)) : ℝ :=
  (m.map fun x => meanError penalty (gt.getD x.1 default).points (pr.getD x.2 default).points).sum +
    ((gt.length : ℝ) - m.length) * penalty

theorem total_eq {cost : ℕ → ℕ → ℝ} {f : ℕ × ℕ → ℝ} {m : List (ℕ × ℕ)} (h : ∀ x ∈ m, cost x.1 x.2 = f x) :
    totalCost cost m = (m.map f).sum := by
  unfold totalCost
  rw [List.map_congr_left h]

/-- C72: the claim that the association minimises the pose metric does not hold (`meanErrorMatching_pem_violated`).  What
holds: over all matchings of candidates it minimises the sum of the mean errors of the pairs and the penalty for every ground
truth object left alone. -/
theorem meanErrorMatching_partial {lsa : Lsa} (hl : LsaSpec lsa) {gt pr : List Obj} {candidate : ℕ → ℕ → Bool} {penalty : ℝ}
    (hu : uniform gt pr) (hp : 0 ≤ penalty) (hv : penalty ≤ veryLarge) {m : List (ℕ × ℕ)} (hm : Matching gt.length pr.length m)
    (hc : ∀ x ∈ m, candidate x.1 x.2 = true) :
    loss penalty gt pr (meanErrorMatching lsa gt pr candidate penalty) ≤ loss penalty gt pr m := by
  have hcand : ∀ x ∈ meanErrorMatching lsa gt pr candidate penalty, candidate x.1 x.2 = true :=
    fun x hx => (meanErrorMatching_candidate hl hu hv hx).2.1
  have hmm := meanErrorMatching_matching hl gt pr candidate penalty
  obtain ⟨n, hn, hg, hpr⟩ := hu
  have heq : ∀ m', Matching gt.length pr.length m' → (∀ x ∈ m', candidate x.1 x.2 = true) →
      totalCost (fun i j => pairCost penalty (candidate i j) (gt.getD i default).points (pr.getD j default).points) m' =
        (m'.map fun x => meanError penalty (gt.getD x.1 default).points (pr.getD x.2 default).points).sum := by
    intro m' hm' hc'
    apply total_eq
    intro x hx
    have hr := hm'.range x hx
    have lg := hg _ (getD_mem hr.1)
    have lp := hpr _ (getD_mem hr.2)
    rw [hc' x hx, pairCost_candidate hp (lg.trans lp.symm) (by omega)]
  unfold loss
  rw [← heq _ hmm hcand, ← heq _ hm hc]
  by_cases h0 : pr.length = 0
  · have hnil : m = [] := by
      cases m with
      | nil => rfl
      | cons x rest =>
        have := (hm.range x List.mem_cons_self).2
        omega
    have : meanErrorMatching lsa gt pr candidate penalty = [] := by
      unfold meanErrorMatching
      rw [if_pos h0]
    rw [this, hnil]
  · unfold meanErrorMatching
    rw [if_neg h0]
    exact hungarian_optimal hl (fun i j => pairCost_le hp _ _ _) hm

/-! ### The whole matching -/

theorem mapM_total {α β : Type} {f : α → Option β} (hf : ∀ a, ∃ b, f a = some b) (l : List α) :
    ∃ bs, l.mapM f = some bs ∧ bs.length = l.length ∧ ∀ (i : ℕ) (a : α) (b : β), l[i]? = some a → f a = some b → bs[i]? = some b := by
  induction l with
  | nil => exact ⟨[], rfl, rfl, fun i a b h => by simp at h⟩
  | cons x rest ih =>
    obtain ⟨bs, h1, h2, h3⟩ := ih
    obtain ⟨y, hy⟩ := hf x
    refine ⟨y :: bs, ?_, by simp [h2], ?_⟩
    · rw [List.mapM_cons, hy, h1]
      rfl
    · intro i a b hi hb
      cases i with
      | zero =>
        have : x = a := by simpa using hi
        subst this
        rw [hy] at hb
        simpa using hb
      | succ i =>
        have := h3 i a b (by simpa using hi) hb
        simpa using this

theorem keypointDistance_total (b : Box) (k : Keypoint) : ∃ d, keypointDistance b k = some d := by
  unfold keypointDistance
  rw [boxDisplacement_eq]
  exact ⟨_, rfl⟩

theorem objDistance_total (g p : Obj) : ∃ ds, objDistance g p = some ds := by
  obtain ⟨ds, h, _⟩ := mapM_total (keypointDistance_total g.box) p.points
  exact ⟨ds, h⟩

/-- The two stages of the matching, with the distances. -/
theorem matchingIds_eq (lsa : Lsa) (threshold : ℝ) (gt pr : List Obj) : ∃ dist : ℕ → ℕ → List (WithTop ℝ),
    (∀ i j, i < gt.length → j < pr.length → objDistance (gt.getD i default) (pr.getD j default) = some (dist i j)) ∧
    matchingIds lsa threshold gt pr = some (meanErrorMatching lsa gt pr
      (fun i j => closeMask threshold (dist i j) && !(used (stage1 lsa threshold gt pr dist) i j)) threshold ++
        stage1 lsa threshold gt pr dist) := by
  have hrow : ∀ g : Obj, ∃ r, pr.mapM (fun p => objDistance g p) = some r := fun g => by
    obtain ⟨r, h, _⟩ := mapM_total (objDistance_total g) pr
    exact ⟨r, h⟩
  obtain ⟨ds, h1, _, h3⟩ := mapM_total hrow gt
  refine ⟨fun i j => (ds.getD i []).getD j [], ?_, ?_⟩
  · intro i j hi hj
    obtain ⟨r, hr, _, hr3⟩ := mapM_total (objDistance_total gt[i]) pr
    obtain ⟨d, hd⟩ := objDistance_total gt[i] pr[j]
    have e1 := h3 i gt[i] r (List.getElem?_eq_getElem hi) hr
    have e2 := hr3 j pr[j] d (List.getElem?_eq_getElem hj) hd
    rw [List.getD_eq_getElem?_getD, List.getD_eq_getElem?_getD, List.getElem?_eq_getElem hi, List.getElem?_eq_getElem hj]
    simp only [Option.getD_some, List.getD_eq_getElem?_getD, e1, e2, hd]
  · unfold matchingIds
    rw [h1]
    rfl

theorem stage1_matching {lsa : Lsa} (hl : LsaSpec lsa) (threshold : ℝ) (gt pr : List Obj) (dist : ℕ → ℕ → List (WithTop ℝ)) :
    Matching gt.length pr.length (stage1 lsa threshold gt pr dist) :=
  matching_sublist (hungarian_matching hl _ _ _ _ _) List.filter_sublist

theorem not_used {m : List (ℕ × ℕ)} {i j : ℕ} (h : used m i j = false) : i ∉ m.map Prod.fst ∧ j ∉ m.map Prod.snd := by
  unfold used at h
  rw [Bool.or_eq_false_iff] at h
  obtain ⟨h1, h2⟩ := h
  rw [List.any_eq_false] at h1 h2
  constructor
  · intro hc
    obtain ⟨x, hx, rfl⟩ := List.mem_map.mp hc
    simpa using h2 x hx
  · intro hc
    obtain ⟨x, hx, rfl⟩ := List.mem_map.mp hc
    simpa using h1 x hx

/-- C32: the matching always exists and uses no ground truth object and no prediction twice; it is an association as the
reordering of objects (C33) needs it. -/
theorem matchingIds_spec {lsa : Lsa} (hl : LsaSpec lsa) {threshold : ℝ} (ht : threshold ≤ 10000000000) {gt pr : List Obj}
    (hu : uniform gt pr) : ∃ ids, matchingIds lsa threshold gt pr = some ids ∧ Association gt pr ids := by
  obtain ⟨dist, _, heq⟩ := matchingIds_eq lsa threshold gt pr
  refine ⟨_, heq, ?_⟩
  have m1 := stage1_matching hl threshold gt pr dist
  have m2 := meanErrorMatching_matching hl gt pr
    (fun i j => closeMask threshold (dist i j) && !(used (stage1 lsa threshold gt pr dist) i j)) threshold
  have hd : ∀ x ∈ meanErrorMatching lsa gt pr
      (fun i j => closeMask threshold (dist i j) && !(used (stage1 lsa threshold gt pr dist) i j)) threshold,
      x.1 ∉ (stage1 lsa threshold gt pr dist).map Prod.fst ∧ x.2 ∉ (stage1 lsa threshold gt pr dist).map Prod.snd := by
    intro x hx
    have := (meanErrorMatching_candidate hl hu ht hx).2.1
    rw [Bool.and_eq_true, Bool.not_eq_true'] at this
    exact not_used this.2
  refine ⟨?_, ?_, ?_⟩
  · rw [List.map_append, List.nodup_append]
    refine ⟨m2.rowsNodup, m1.rowsNodup, ?_⟩
    intro a ha b hb hab
    subst hab
    obtain ⟨x, hx, rfl⟩ := List.mem_map.mp ha
    exact (hd x hx).1 hb
  · rw [List.map_append, List.nodup_append]
    refine ⟨m2.colsNodup, m1.colsNodup, ?_⟩
    intro a ha b hb hab
    subst hab
    obtain ⟨x, hx, rfl⟩ := List.mem_map.mp ha
    exact (hd x hx).2 hb
  · intro x hx
    rcases List.mem_append.mp hx with hx | hx
    · exact m2.range x hx
    · exact m1.range x hx

/-- C32 and C33 together: the official matcher followed by the reordering. -/
theorem matchingIds_reorder {lsa : Lsa} (hl : LsaSpec lsa) {threshold : ℝ} (ht : threshold ≤ 10000000000) {gt pr : List Obj}
    (hu : uniform gt pr) (n : ℕ) : ∃ ids g p, matchingIds lsa threshold gt pr = some ids ∧
      reorder n ids gt pr = some (g, p) ∧ g.length = p.length ∧ (g.zip p).Perm (expected (zeroObj n) ids gt pr) := by
  obtain ⟨ids, h1, h2⟩ := matchingIds_spec hl ht hu
  obtain ⟨g, p, h3, h4, h5⟩ := reorder_spec n h2
  exact ⟨ids, g, p, h1, h3, h4, h5⟩

/-! ### C74: associated objects are close -/

theorem foldl_min_exists (ds : List (WithTop ℝ)) (a t : WithTop ℝ) (h : ds.foldl min a ≤ t) (ha : ¬ a ≤ t) : ∃ d ∈ ds, d ≤ t := by
  induction ds generalizing a with
  | nil => exact absurd h ha
  | cons d rest ih =>
    by_cases hd : d ≤ t
    · exact ⟨d, List.mem_cons_self, hd⟩
    · obtain ⟨x, hx, hx'⟩ := ih (min a d) h (by rw [min_le_iff]; tauto)
      exact ⟨x, List.mem_cons_of_mem _ hx, hx'⟩

theorem mapM_mem_some {α β : Type} {f : α → Option β} {l : List α} {bs : List β} (h : l.mapM f = some bs) {b : β} (hb : b ∈ bs) :
    ∃ a ∈ l, f a = some b := by
  induction l generalizing bs with
  | nil =>
    simp only [List.mapM_nil, Option.pure_def, Option.some.injEq] at h
    subst h
    simp at hb
  | cons x rest ih =>
    rw [List.mapM_cons] at h
    cases hx : f x with
    | none => rw [hx] at h; simp at h
    | some y =>
      cases hr : rest.mapM f with
      | none => rw [hx, hr] at h; simp at h
      | some ys =>
        rw [hx, hr] at h
        simp only [Option.bind_eq_bind, Option.bind_some, Option.pure_def, Option.some.injEq] at h
        subst h
        rcases List.mem_cons.mp hb with rfl | hb
        · exact ⟨x, List.mem_cons_self, hx⟩
        · obtain ⟨a, ha, e⟩ := ih hr hb
          exact ⟨a, List.mem_cons_of_mem _ ha, e⟩

/-- A visible key point of the prediction is at most `t` away from the box of the ground truth (with the opposite heading). -/
def Near (t : ℝ) (g p : Obj) : Prop :=
  ∃ k ∈ p.points, 1 < k.visibility ∧ ∃ q, Inside q (flip g.box) ∧ norm (q - k.loc) ≤ t

theorem near_of_distance {g p : Obj} (hb : ∀ j, 0 ≤ g.box.dim j) {ds : List (WithTop ℝ)} (hd : objDistance g p = some ds) {t : ℝ}
    (h : ∃ d ∈ ds, d ≤ (t : WithTop ℝ)) : Near t g p := by
  obtain ⟨d, hd', hle⟩ := h
  obtain ⟨k, hk, hkd⟩ := mapM_mem_some hd hd'
  obtain ⟨v, hv, hin, _⟩ := boxDisplacement_spec hb k.loc
  unfold keypointDistance at hkd
  rw [hv] at hkd
  simp only [Option.bind_eq_bind, Option.bind_some, Option.pure_def, Option.some.injEq] at hkd
  by_cases hvis : visible k = true
  · rw [if_pos hvis] at hkd
    rw [← hkd, WithTop.coe_le_coe] at hle
    refine ⟨k, hk, by simpa [visible] using hvis, _, hin, ?_⟩
    rwa [add_sub_cancel_left]
  · rw [if_neg hvis] at hkd
    rw [← hkd] at hle
    simp at hle

theorem pointsInside_pos {ds : List (WithTop ℝ)} (h : 0 < pointsInside ds) : ∃ d ∈ ds, d ≤ (eps : WithTop ℝ) := by
  by_contra hc
  push Not at hc
  unfold pointsInside at h
  rw [List.sum_eq_zero] at h
  · exact lt_irrefl _ h
  · intro x hx
    obtain ⟨d, hd, rfl⟩ := List.mem_map.mp hx
    rw [if_neg (not_lt.mpr (hc d hd).le)]

/-- C74: every pair has a visible predicted key point near the ground truth box, and is of one of two kinds: the ground truth
has no visible key point and the predicted point is in the box (up to 1e-5) and no visible key point of the prediction is
within the threshold of the same, visible key point of any ground truth; or the mean error is below the threshold. -/
theorem matchingIds_near {lsa : Lsa} (hl : LsaSpec lsa) {threshold : ℝ} (ht : threshold ≤ 10000000000) {gt pr : List Obj}
    (hu : uniform gt pr) (hb : ∀ g ∈ gt, ∀ j, 0 ≤ g.box.dim j) {ids : List (ℕ × ℕ)} (h : matchingIds lsa threshold gt pr = some ids)
    {x : ℕ × ℕ} (hx : x ∈ ids) :
    (hasVisible (gt.getD x.1 default) = false ∧ Near (1 / 100000) (gt.getD x.1 default) (pr.getD x.2 default) ∧
      ∀ g ∈ gt, nearVisible threshold g (pr.getD x.2 default) = false) ∨
    (Near threshold (gt.getD x.1 default) (pr.getD x.2 default) ∧
      meanError threshold (gt.getD x.1 default).points (pr.getD x.2 default).points < threshold) := by
  obtain ⟨dist, hdist, heq⟩ := matchingIds_eq lsa threshold gt pr
  rw [heq, Option.some.injEq] at h
  subst h
  rcases List.mem_append.mp hx with hx | hx
  · right
    have hr := (meanErrorMatching_matching hl gt pr _ threshold).range x hx
    obtain ⟨_, hc, he⟩ := meanErrorMatching_candidate hl hu ht hx
    refine ⟨?_, he⟩
    rw [Bool.and_eq_true] at hc
    have := hc.1
    unfold closeMask at this
    rw [decide_eq_true_eq] at this
    exact near_of_distance (hb _ (getD_mem hr.1)) (hdist _ _ hr.1 hr.2)
      (foldl_min_exists _ _ _ this (by simp))
  · left
    have hr := (stage1_matching hl threshold gt pr dist).range x hx
    unfold stage1 at hx
    obtain ⟨hx1, hx2⟩ := List.mem_filter.mp hx
    have hk := hungarian_keep hx1
    split at hk
    · next hg =>
      unfold gtiMask at hg
      rw [Bool.and_eq_true, Bool.not_eq_true', List.any_eq_false] at hg
      refine ⟨by simpa using hx2, near_of_distance (hb _ (getD_mem hr.1)) (hdist _ _ hr.1 hr.2) (pointsInside_pos hk), ?_⟩
      intro g hgm
      have := hg.1 g hgm
      simpa using this
    · exact absurd hk (lt_irrefl _)

/-- The number of predicted key points in the box of a ground truth, for the pairs the first stage looks at. -/
noncomputable def stageScore (threshold : ℝ) (gt pr : List Obj) (dist : ℕ → ℕ → List (WithTop ℝ)) (i j : ℕ) : ℝ :=
  if gtiMask threshold gt (gt.getD i default) (pr.getD j default) then pointsInside (dist i j) else 0

theorem stageScore_nonneg (threshold : ℝ) (gt pr : List Obj) (dist : ℕ → ℕ → List (WithTop ℝ)) (i j : ℕ) :
    0 ≤ stageScore threshold gt pr dist i j := by
  unfold stageScore
  split
  · unfold pointsInside
    refine List.sum_nonneg fun x hx => ?_
    obtain ⟨d, _, rfl⟩ := List.mem_map.mp hx
    split <;> norm_num
  · exact le_refl _

theorem totalCost_nonneg {cost : ℕ → ℕ → ℝ} (h : ∀ i j, 0 ≤ cost i j) (m : List (ℕ × ℕ)) : 0 ≤ totalCost cost m := by
  unfold totalCost
  refine List.sum_nonneg fun x hx => ?_
  obtain ⟨y, _, rfl⟩ := List.mem_map.mp hx
  exact h _ _

/-- C74: the first stage finds the largest possible number of predicted key points inside boxes without visible key points. -/
theorem stage1_optimal {lsa : Lsa} (hl : LsaSpec lsa) (threshold : ℝ) (gt pr : List Obj) (dist : ℕ → ℕ → List (WithTop ℝ))
    {m : List (ℕ × ℕ)} (hm : Matching gt.length pr.length m) :
    totalCost (stageScore threshold gt pr dist) m ≤
      totalCost (stageScore threshold gt pr dist) (stage1 lsa threshold gt pr dist) := by
  classical
  obtain ⟨extra, h1, h2⟩ := matching_complete hm
  set score := stageScore threshold gt pr dist with hscore
  have hneg : ∀ l, totalCost (fun i j => -score i j) l = -totalCost score l := by
    intro l
    unfold totalCost
    induction l with
    | nil => simp
    | cons x rest ih =>
      simp only [List.map_cons, List.sum_cons, ih]
      ring
  have ho := (hl gt.length pr.length fun i j => -score i j).2 _ h1 h2
  rw [hneg, hneg, totalCost_append] at ho
  have he := totalCost_nonneg (stageScore_nonneg threshold gt pr dist) extra
  have hf : ∀ l, totalCost score l = totalCost score ((l.filter fun x => decide (0 < score x.1 x.2)).filter
      fun m => !(hasVisible (gt.getD m.1 default))) := by
    intro l
    unfold totalCost
    induction l with
    | nil => rfl
    | cons x rest ih =>
      by_cases hx : 0 < score x.1 x.2
      · have hv : hasVisible (gt.getD x.1 default) = false := by
          by_contra hc
          rw [Bool.not_eq_false] at hc
          have : score x.1 x.2 = 0 := by
            rw [hscore]
            unfold stageScore gtiMask
            simp only [hc, Bool.not_true, Bool.and_false, Bool.false_eq_true, if_false]
          linarith
        simp only [List.filter_cons, hx, decide_true, if_true, hv, Bool.not_false, List.map_cons, List.sum_cons]
        rw [ih]
      · have h0 : score x.1 x.2 = 0 := le_antisymm (not_lt.mp hx) (stageScore_nonneg _ _ _ _ _ _)
        simp only [List.filter_cons, hx, decide_false, Bool.false_eq_true, if_false, List.map_cons, List.sum_cons]
        rw [h0, zero_add]
        exact ih
  have hs : stage1 lsa threshold gt pr dist = ((lsa gt.length pr.length fun i j => -score i j).filter
      fun x => decide (0 < score x.1 x.2)).filter fun m => !(hasVisible (gt.getD m.1 default)) := by
    unfold stage1 hungarian
    simp only [if_true]
    rfl
  rw [hs, ← hf]
  linarith

/-- What "near" means for the key points themselves. -/
theorem nearVisible_iff (t : ℝ) (g p : Obj) : nearVisible t g p = true ↔ ∃ (i : ℕ) (a b : Keypoint), g.points[i]? = some a ∧
    p.points[i]? = some b ∧ 1 < a.visibility ∧ 1 < b.visibility ∧ norm (a.loc - b.loc) < t := by
  unfold nearVisible
  rw [List.any_eq_true]
  constructor
  · rintro ⟨x, hx, hx'⟩
    obtain ⟨i, hi⟩ := List.getElem?_of_mem hx
    rw [List.getElem?_zipWith] at hi
    cases ha : g.points[i]? with
    | none => rw [ha] at hi; simp at hi
    | some a =>
      cases hb : p.points[i]? with
      | none => rw [ha, hb] at hi; simp at hi
      | some b =>
        rw [ha, hb] at hi
        simp only [Option.some.injEq] at hi
        subst hi
        simp only [id, Bool.and_eq_true, decide_eq_true_eq, visible] at hx'
        exact ⟨i, a, b, ha, hb, hx'.1.1, hx'.1.2, hx'.2⟩
  · rintro ⟨i, a, b, ha, hb, h1, h2, h3⟩
    refine ⟨true, List.mem_of_getElem? (i := i) ?_, rfl⟩
    rw [List.getElem?_zipWith, ha, hb]
    simp [visible, h1, h2, h3]

/-! ### Limits -/

/-- The ground truth of the counterexample: two key points, the second one visible. -/
noncomputable def exGt : Obj := ⟨[⟨0, 0⟩, ⟨0, 2⟩], ⟨0, 1, 0⟩⟩

/-- A prediction with the second key point in the right place, and an extra first one. -/
noncomputable def exPr1 : Obj := ⟨[⟨0, 2⟩, ⟨0, 2⟩], ⟨0, 1, 0⟩⟩

/-- A prediction with the second key point in a wrong place. -/
noncomputable def exPr2 : Obj := ⟨[⟨0, 0⟩, ⟨![9 / 10, 0, 0], 2⟩], ⟨0, 1, 0⟩⟩

theorem norm_x (x : ℝ) (hx : 0 ≤ x) : norm (0 - ![x, 0, 0]) = x := by
  unfold norm
  rw [show (0 - ![x, 0, 0] : V3) 0 = -x by simp, show (0 - ![x, 0, 0] : V3) 1 = 0 by simp,
    show (0 - ![x, 0, 0] : V3) 2 = 0 by rw [zero_sub]; show -(0 : ℝ) = 0; norm_num]
  rw [show (-x) ^ 2 + 0 ^ 2 + 0 ^ 2 = x ^ 2 by ring, Real.sqrt_sq hx]

theorem norm_0 : norm (0 - 0) = 0 := by
  unfold norm
  simp

theorem ex_error1 : meanError 1 exGt.points exPr1.points = 1 / 2 := by
  have h1 : pointError 1 ⟨0, 0⟩ ⟨0, 2⟩ = (1, true) := pointError_mismatched (Or.inr ⟨by norm_num, by norm_num⟩)
  have h2 : pointError 1 ⟨0, 2⟩ ⟨0, 2⟩ = (0, true) := by
    rw [pointError_matched zero_le_one (by norm_num) (by norm_num), norm_0]
    norm_num
  simp only [meanError, exGt, exPr1, List.zipWith_cons_cons, List.zipWith_nil_right, h1, h2]
  norm_num

theorem ex_error2 : meanError 1 exGt.points exPr2.points = 9 / 20 := by
  have h1 : pointError 1 ⟨0, 0⟩ ⟨0, 0⟩ = (0, false) := pointError_absent (by norm_num) (by norm_num)
  have h2 : pointError 1 ⟨0, 2⟩ ⟨![9 / 10, 0, 0], 2⟩ = (9 / 10, true) := by
    rw [pointError_matched zero_le_one (by norm_num) (by norm_num), norm_x _ (by norm_num)]
    norm_num
  simp only [meanError, exGt, exPr2, List.zipWith_cons_cons, List.zipWith_nil_right, h1, h2]
  norm_num

theorem ex_uniform : uniform [exGt] [exPr1, exPr2] := by
  refine ⟨2, by norm_num, ?_, ?_⟩
  · intro o ho
    simp only [List.mem_singleton] at ho
    subst ho
    rfl
  · intro o ho
    simp only [List.mem_cons, List.not_mem_nil, or_false] at ho
    rcases ho with rfl | rfl <;> rfl

theorem ex_matching {lsa : Lsa} (hl : LsaSpec lsa) :
    meanErrorMatching lsa [exGt] [exPr1, exPr2] (fun _ _ => true) 1 = [(0, 1)] := by
  have hv : (1 : ℝ) ≤ veryLarge := by unfold veryLarge; norm_num
  have hm := meanErrorMatching_matching hl [exGt] [exPr1, exPr2] (fun _ _ => true) 1
  have ho := meanErrorMatching_partial hl (candidate := fun _ _ => true) ex_uniform zero_le_one hv
    (m := [(0, 1)]) ⟨by simp, by simp, by simp⟩ (by simp)
  have hlen := matching_length hm
  generalize meanErrorMatching lsa [exGt] [exPr1, exPr2] (fun _ _ => true) 1 = m at hm ho hlen
  have e2 : loss 1 [exGt] [exPr1, exPr2] [(0, 1)] = 9 / 20 := by
    have : meanError 1 (([exGt] : List Obj).getD 0 default).points (([exPr1, exPr2] : List Obj).getD 1 default).points = 9 / 20 := ex_error2
    simp only [loss, List.map_cons, List.map_nil, List.sum_cons, List.sum_nil, this]
    simp
  rw [e2] at ho
  match m, hm, ho, hlen with
  | [], _, ho, _ =>
    simp [loss] at ho
    norm_num at ho
  | [(i, j)], hm, ho, _ =>
    have hr := hm.range (i, j) List.mem_cons_self
    simp only [List.length_cons, List.length_nil] at hr
    have hi : i = 0 := by omega
    subst hi
    have hj : j = 0 ∨ j = 1 := by omega
    rcases hj with rfl | rfl
    · have : meanError 1 (([exGt] : List Obj).getD 0 default).points (([exPr1, exPr2] : List Obj).getD 0 default).points = 1 / 2 := ex_error1
      simp only [loss, List.map_cons, List.map_nil, List.sum_cons, List.sum_nil, this] at ho
      simp at ho
      norm_num at ho
    · rfl
  | _ :: _ :: _, _, _, hlen => simp at hlen

/-- The pose metric of an association: of the reordered objects. -/
noncomputable def pemOf (penalty : ℝ) (n : ℕ) (ids : List (ℕ × ℕ)) (gt pr : List Obj) : Option ℝ := do
  let r ← reorder n ids gt pr
  pem penalty [(r.1.map Obj.points, r.2.map Obj.points, .none)]

theorem ex_pem2 : pemOf 1 2 [(0, 1)] [exGt] [exPr1, exPr2] = some (29 / 30) := by
  have hr : reorder 2 [(0, 1)] [exGt] [exPr1, exPr2] = some ([exGt, zeroObj 2], [exPr2, exPr1]) := rfl
  unfold pemOf
  rw [hr]
  simp only [Option.bind_eq_bind, Option.bind_some]
  rw [pem_spec zero_le_one _ (by simp [exGt, exPr1, exPr2, zeroObj])]
  congr 1
  have h1 := norm_x (9 / 10) (by norm_num)
  have h2 : (0 - ![9 / 10, 0, 0] : V3) = ![-(9 / 10), 0, 0] := by simp
  rw [h2] at h1
  simp [pemSpec, pairsOf, Matched, Mismatched, List.filter, exGt, exPr1, exPr2, zeroObj, h1, List.replicate]
  norm_num

theorem ex_pem1 : pemOf 1 2 [(0, 0)] [exGt] [exPr1, exPr2] = some (2 / 3) := by
  have hr : reorder 2 [(0, 0)] [exGt] [exPr1, exPr2] = some ([exGt, zeroObj 2], [exPr1, exPr2]) := rfl
  unfold pemOf
  rw [hr]
  simp only [Option.bind_eq_bind, Option.bind_some]
  rw [pem_spec zero_le_one _ (by simp [exGt, exPr1, exPr2, zeroObj])]
  congr 1
  have h1 := norm_0
  simp only [sub_zero] at h1
  simp [pemSpec, pairsOf, Matched, Mismatched, List.filter, exGt, exPr1, exPr2, zeroObj, h1, List.replicate]
  norm_num

/-- C72 fails as documented ("output matches will minimize the PEM"): for these objects the matching chosen has a pose metric
of 29/30, and the other one has 2/3. -/
theorem meanErrorMatching_pem_violated {lsa : Lsa} (hl : LsaSpec lsa) : ∃ other : List (ℕ × ℕ), Matching 1 2 other ∧ ∃ a b,
    pemOf 1 2 (meanErrorMatching lsa [exGt] [exPr1, exPr2] (fun _ _ => true) 1) [exGt] [exPr1, exPr2] = some a ∧
    pemOf 1 2 other [exGt] [exPr1, exPr2] = some b ∧ b < a := by
  refine ⟨[(0, 0)], ⟨by simp, by simp, by simp⟩, 29 / 30, 2 / 3, ?_, ex_pem1, by norm_num⟩
  rw [ex_matching hl, ex_pem2]

/-- A ground truth without visible key points. -/
noncomputable def exHidden : Obj := ⟨[⟨0, 0⟩], ⟨0, 1, 0⟩⟩

/-- A prediction at its centre. -/
noncomputable def exSeen : Obj := ⟨[⟨0, 2⟩], ⟨0, 1, 0⟩⟩

theorem lsa_one {lsa : Lsa} (hl : LsaSpec lsa) (cost : ℕ → ℕ → ℝ) : lsa 1 1 cost = [(0, 0)] := by
  obtain ⟨⟨hm, hlen⟩, _⟩ := hl 1 1 cost
  match h : lsa 1 1 cost with
  | [] => rw [h] at hlen; simp at hlen
  | [(i, j)] =>
    have hr := hm.range (i, j) (by rw [h]; exact List.mem_cons_self)
    have h1 : i = 0 := by omega
    have h2 : j = 0 := by omega
    rw [h1, h2]
  | _ :: _ :: _ => rw [h] at hlen; simp at hlen

/-- C32 needs its bound on the threshold: above 1e10, the placeholder for pairs that are no candidates is below the threshold, and
the same pair is associated twice. -/
theorem matchingIds_threshold_violated {lsa : Lsa} (hl : LsaSpec lsa) :
    matchingIds lsa 20000000000 [exHidden] [exSeen] = some [(0, 0), (0, 0)] := by
  obtain ⟨dist, hdist, heq⟩ := matchingIds_eq lsa 20000000000 [exHidden] [exSeen]
  rw [heq]
  have hz : boxDisplacement 0 exHidden.box = some 0 := by
    rw [boxDisplacement_zero (by intro j; exact zero_le_one), inside_iff]
    simp [exHidden, flip]
  have hd : dist 0 0 = [((0 : ℝ) : WithTop ℝ)] := by
    have := hdist 0 0 (by simp) (by simp)
    have e : objDistance exHidden exSeen = some [((0 : ℝ) : WithTop ℝ)] := by
      unfold objDistance keypointDistance
      have hn : norm 0 = 0 := by simp [norm]
      simp [exSeen, hz, visible, hn]
    have e' : objDistance (([exHidden] : List Obj).getD 0 default) (([exSeen] : List Obj).getD 0 default) =
      some [((0 : ℝ) : WithTop ℝ)] := e
    rw [e'] at this
    exact (Option.some.inj this).symm
  have hs : stage1 lsa 20000000000 [exHidden] [exSeen] dist = [(0, 0)] := by
    unfold stage1 hungarian
    have hlen1 : ([exHidden] : List Obj).length = 1 := rfl
    have hlen2 : ([exSeen] : List Obj).length = 1 := rfl
    rw [hlen1, hlen2, lsa_one hl]
    have hg : gtiMask 20000000000 [exHidden] (([exHidden] : List Obj).getD 0 default) (([exSeen] : List Obj).getD 0 default) = true := by
      show gtiMask 20000000000 [exHidden] exHidden exSeen = true
      simp [gtiMask, nearVisible, hasVisible, exHidden, exSeen, visible]
    have hp : pointsInside (dist 0 0) = 1 := by
      rw [hd]
      unfold pointsInside
      have : ((0 : ℝ) : WithTop ℝ) < ((eps : ℝ) : WithTop ℝ) := by
        rw [WithTop.coe_lt_coe]
        unfold eps
        norm_num
      simp only [List.map_cons, List.map_nil, if_pos this]
      simp
    have hv : hasVisible (([exHidden] : List Obj).getD 0 default) = false := by
      show hasVisible exHidden = false
      simp [hasVisible, exHidden, visible]
    simp only [List.filter_cons, List.filter_nil, hg, hp, hv, if_true]
    simp only [zero_lt_one, decide_true, if_true, List.filter_cons, List.filter_nil, hv, Bool.not_false]
  have hm : meanErrorMatching lsa [exHidden] [exSeen]
      (fun i j => closeMask 20000000000 (dist i j) && !(used (stage1 lsa 20000000000 [exHidden] [exSeen] dist) i j)) 20000000000 =
      [(0, 0)] := by
    unfold meanErrorMatching hungarian
    have hlen1 : ([exHidden] : List Obj).length = 1 := rfl
    have hlen2 : ([exSeen] : List Obj).length = 1 := rfl
    rw [hlen1, hlen2, lsa_one hl, hs]
    have hu : used [(0, 0)] 0 0 = true := rfl
    have hp : pairCost 20000000000 false (([exHidden] : List Obj).getD 0 default).points (([exSeen] : List Obj).getD 0 default).points =
        10000000000 := by
      show pairCost 20000000000 false exHidden.points exSeen.points = 10000000000
      unfold pairCost meanOf clip veryLarge exHidden
      simp
      norm_num
    simp only [List.filter_cons, List.filter_nil, hu, Bool.not_true, Bool.and_false, hp]
    norm_num
  rw [hm, hs]
  rfl

end Verif.Pose
