import Verif.Model.Maps
import Mathlib.Tactic.Linarith
import Mathlib.Tactic.FieldSimp

/-!
Plots of maps show all features with their types (C177); animations of simulated agents show the boxes of the current step (C178).
-/

namespace Verif.Maps

/-! ## Maps -/

section
variable {P : Type}

/-- Specification: the outline that is drawn; polygons are closed. -/
def outline : Data P → List P
  | .lane _ ps => ps
  | .roadLine _ ps => ps
  | .roadEdge _ ps => ps
  | .stopSign p => [p]
  | .crosswalk ps => ps ++ ps.take 1
  | .speedBump ps => ps ++ ps.take 1
  | .driveway ps => ps ++ ps.take 1
  | .unset => []

/-- Specification: color and dash of the types of the dataset. -/
def style : Data P → Option (String × String)
  | .lane 0 _ => some ("black", "solid")
  | .lane 1 _ => some ("white", "solid")
  | .lane 2 _ => some ("royalblue", "solid")
  | .lane 3 _ => some ("magenta", "solid")
  | .lane _ _ => none
  | .roadLine 0 _ => some ("black", "solid")
  | .roadLine 1 _ => some ("lightgray", "dash")
  | .roadLine 2 _ => some ("lightgray", "solid")
  | .roadLine 3 _ => some ("lightgray", "solid")
  | .roadLine 4 _ => some ("yellow", "dash")
  | .roadLine 5 _ => some ("yellow", "dash")
  | .roadLine 6 _ => some ("yellow", "solid")
  | .roadLine 7 _ => some ("yellow", "solid")
  | .roadLine 8 _ => some ("yellow", "dash")
  | .roadLine _ _ => none
  | .roadEdge 0 _ => some ("black", "solid")
  | .roadEdge 1 _ => some ("green", "solid")
  | .roadEdge 2 _ => some ("green", "solid")
  | .roadEdge _ _ => none
  | .stopSign _ => some ("red", "solid")
  | .crosswalk _ => some ("orange", "solid")
  | .speedBump _ => some ("cyan", "solid")
  | .driveway _ => some ("blue", "solid")
  | .unset => some ("", "")

/-- Specification: a feature of a type of the dataset that can be drawn. -/
def Drawable (f : Feature P) : Prop :=
  style f.data ≠ none ∧ (∀ ps, f.data ≠ .roadLine 7 ps) ∧ f.data ≠ .crosswalk [] ∧ f.data ≠ .speedBump [] ∧ f.data ≠ .driveway []

/-- The points that a feature adds. -/
theorem addFeature_drawable {f : Feature P} (h : Drawable f) : ∃ t : FeatureType,
    (∀ l, addFeature l f = some (l ++ (outline f.data).map fun p => ⟨p, t, f.id⟩)) ∧ (outline f.data ≠ [] → style f.data = some (lineStyle t)) := by
  obtain ⟨h1, h2, h3, h4, h5⟩ := h
  obtain ⟨id, d⟩ := f
  cases d with
  | lane t ps =>
    match t, h1 with
    | 0, _ => exact ⟨.unknown, fun _ => rfl, fun _ => rfl⟩
    | 1, _ => exact ⟨.freewayLane, fun _ => rfl, fun _ => rfl⟩
    | 2, _ => exact ⟨.surfaceStreetLane, fun _ => rfl, fun _ => rfl⟩
    | 3, _ => exact ⟨.bikeLane, fun _ => rfl, fun _ => rfl⟩
    | n + 4, h => exact absurd rfl h
  | roadLine t ps =>
    match t, h1, h2 with
    | 0, _, _ => exact ⟨.unknown, fun _ => rfl, fun _ => rfl⟩
    | 1, _, _ => exact ⟨.brokenSingleWhite, fun _ => rfl, fun _ => rfl⟩
    | 2, _, _ => exact ⟨.solidSingleWhite, fun _ => rfl, fun _ => rfl⟩
    | 3, _, _ => exact ⟨.solidDoubleWhite, fun _ => rfl, fun _ => rfl⟩
    | 4, _, _ => exact ⟨.brokenSingleYellow, fun _ => rfl, fun _ => rfl⟩
    | 5, _, _ => exact ⟨.brokenDoubleYellow, fun _ => rfl, fun _ => rfl⟩
    | 6, _, _ => exact ⟨.solidSingleYellow, fun _ => rfl, fun _ => rfl⟩
    | 7, _, h => exact absurd rfl (h ps)
    | 8, _, _ => exact ⟨.passingDoubleYellow, fun _ => rfl, fun _ => rfl⟩
    | n + 9, h, _ => exact absurd rfl h
  | roadEdge t ps =>
    match t, h1 with
    | 0, _ => exact ⟨.unknown, fun _ => rfl, fun _ => rfl⟩
    | 1, _ => exact ⟨.roadEdgeBoundary, fun _ => rfl, fun _ => rfl⟩
    | 2, _ => exact ⟨.roadEdgeMedian, fun _ => rfl, fun _ => rfl⟩
    | n + 3, h => exact absurd rfl h
  | stopSign p => exact ⟨.stopSign, fun _ => rfl, fun _ => rfl⟩
  | crosswalk ps =>
    cases ps with
    | nil => exact absurd rfl h3
    | cons p ps => exact ⟨.crosswalk, fun l => by simp [addFeature, addPoints, outline], fun _ => rfl⟩
  | speedBump ps =>
    cases ps with
    | nil => exact absurd rfl h4
    | cons p ps => exact ⟨.speedBump, fun l => by simp [addFeature, addPoints, outline], fun _ => rfl⟩
  | driveway ps =>
    cases ps with
    | nil => exact absurd rfl h5
    | cons p ps => exact ⟨.driveway, fun l => by simp [addFeature, addPoints, outline], fun _ => rfl⟩
  | unset => exact ⟨.unknown, fun l => by simp [addFeature, outline], fun h => absurd rfl h⟩

theorem runs_nil : runs ([] : List (Pt P)) = [] := by unfold runs; rfl

theorem runs_cons (p : Pt P) (rest : List (Pt P)) : runs (p :: rest) =
    trace (p.point :: (rest.takeWhile fun q => q.id = p.id).map Pt.point) p.type :: runs (rest.dropWhile fun q => q.id = p.id) := by
  rw [runs]

/-- The points of a trace. -/
def Trace.points : Trace P → List P
  | .markers ps _ _ => ps
  | .lines ps _ _ _ => ps

theorem trace_eq (ps : List P) (t : FeatureType) : trace ps t = .lines ps (lineStyle t).1 (lineStyle t).2 15 := rfl

/-- C177: no point that is given is lost, whatever the identifiers are. -/
theorem no_point_lost (l : List (Pt P)) : (runs l).flatMap Trace.points = l.map Pt.point := by
  induction hn : l.length using Nat.strong_induction_on generalizing l with
  | _ n ih =>
    cases l with
    | nil => rw [runs_nil]; rfl
    | cons p rest =>
      have hl := (List.dropWhile_sublist (l := rest) fun q => decide (q.id = p.id)).length_le
      rw [runs_cons, List.flatMap_cons, ih _ (by rw [← hn, List.length_cons]; omega) _ rfl, trace_eq]
      show p.point :: _ ++ _ = _
      rw [List.cons_append, ← List.map_append, List.takeWhile_append_dropWhile, List.map_cons]

theorem runs_append {ps : List P} {t : FeatureType} {id : ℤ} {rest : List (Pt P)} (hps : ps ≠ []) (hr : ∀ q ∈ rest, q.id ≠ id) :
    runs ((ps.map fun p => (⟨p, t, id⟩ : Pt P)) ++ rest) = .lines ps (lineStyle t).1 (lineStyle t).2 15 :: runs rest := by
  cases ps with
  | nil => exact absurd rfl hps
  | cons p ps =>
    rw [List.map_cons, List.cons_append, runs_cons]
    have hall : ∀ q ∈ ps.map fun p => (⟨p, t, id⟩ : Pt P), decide (q.id = id) = true := by
      intro q hq
      obtain ⟨x, -, rfl⟩ := List.mem_map.1 hq
      exact decide_eq_true rfl
    have h1 : rest.takeWhile (fun q => decide (q.id = id)) = [] := by
      cases rest with
      | nil => rfl
      | cons q r => rw [List.takeWhile_cons_of_neg (by simpa using hr q (by simp))]
    have h2 : rest.dropWhile (fun q => decide (q.id = id)) = rest := by
      cases rest with
      | nil => rfl
      | cons q r => rw [List.dropWhile_cons_of_neg (by simpa using hr q (by simp))]
    simp only
    rw [List.takeWhile_append_of_pos hall, List.dropWhile_append_of_pos hall, h1, h2, trace_eq, List.append_nil, List.map_map]
    congr 2
    have : (Pt.point ∘ fun p => (⟨p, t, id⟩ : Pt P)) = _root_.id := rfl
    rw [this, List.map_id]

/-- C177: if the identifiers of the features differ and all can be drawn, then the figure has one line for every feature with points,
in their order, with its outline and the color and dash of its type; all points are in the scatter plot with that color. -/
theorem plot_spec_partial {features : List (Feature P)} (hid : (features.map Feature.id).Nodup) (hd : ∀ f ∈ features, Drawable f)
    (hne : ∃ f ∈ features, outline f.data ≠ []) :
    ∃ scatter traces, plotFeatures features = some (scatter, traces) ∧
      scatter = features.flatMap (fun f => (outline f.data).map fun p => (p, ((style f.data).getD ("", "")).1)) ∧
      traces = (features.filter fun f => !(outline f.data).isEmpty).map (fun f =>
        .lines (outline f.data) ((style f.data).getD ("", "")).1 ((style f.data).getD ("", "")).2 15) := by
  have key : ∀ (fs : List (Feature P)), (fs.map Feature.id).Nodup → (∀ f ∈ fs, Drawable f) → ∃ pts : List (Pt P),
      (∀ l, fs.foldlM addFeature l = some (l ++ pts)) ∧ (∀ p ∈ pts, p.id ∈ fs.map Feature.id) ∧
      pts.map (fun p => (p.point, (lineStyle p.type).1)) =
        fs.flatMap (fun f => (outline f.data).map fun p => (p, ((style f.data).getD ("", "")).1)) ∧
      runs pts = (fs.filter fun f => !(outline f.data).isEmpty).map (fun f =>
        .lines (outline f.data) ((style f.data).getD ("", "")).1 ((style f.data).getD ("", "")).2 15) := by
    intro fs
    induction fs with
    | nil => intro _ _; exact ⟨[], fun l => by simp, by simp, rfl, runs_nil⟩
    | cons f fs ih =>
      intro hn hd
      obtain ⟨t, hadd, ht⟩ := addFeature_drawable (hd f (by simp))
      rw [List.map_cons, List.nodup_cons] at hn
      obtain ⟨pts, p1, p2, p3, p4⟩ := ih hn.2 fun g hg => hd g (by simp [hg])
      refine ⟨((outline f.data).map fun p => ⟨p, t, f.id⟩) ++ pts, ?_, ?_, ?_, ?_⟩
      · intro l
        rw [List.foldlM_cons, hadd]
        show fs.foldlM addFeature _ = _
        rw [p1, List.append_assoc]
      · intro p hp
        rcases List.mem_append.1 hp with hp | hp
        · obtain ⟨x, -, rfl⟩ := List.mem_map.1 hp
          simp
        · rw [List.map_cons]; exact List.mem_cons_of_mem _ (p2 p hp)
      · rw [List.map_append, p3, List.flatMap_cons, List.map_map]
        congr 1
        by_cases ho : outline f.data = []
        · rw [ho]; rfl
        · rw [ht ho]; rfl
      · by_cases ho : outline f.data = []
        · rw [ho]
          simp [ho, p4]
        · rw [runs_append ho, p4, List.filter_cons_of_pos (by simpa using ho), List.map_cons, ht ho]
          · rfl
          · intro q hq he
            exact hn.1 (he ▸ p2 q hq)
  obtain ⟨pts, p1, -, p3, p4⟩ := key features hid hd
  refine ⟨_, _, ?_, p3, p4⟩
  have hpts : pts ≠ [] := by
    rintro rfl
    obtain ⟨f, hf, ho⟩ := hne
    have : ∀ x ∈ outline f.data, False := by
      intro x hx
      have hm : (x, ((style f.data).getD ("", "")).1) ∈
          features.flatMap (fun f => (outline f.data).map fun p => (p, ((style f.data).getD ("", "")).1)) :=
        List.mem_flatMap.2 ⟨f, hf, List.mem_map.2 ⟨x, hx, rfl⟩⟩
      rw [← p3] at hm
      simp at hm
    exact ho (List.eq_nil_iff_forall_not_mem.2 this)
  unfold plotFeatures
  rw [p1, List.nil_append]
  show plotPoints pts = _
  unfold plotPoints
  rw [if_neg (by simpa using hpts)]

theorem foldlM_congr_mid {σ α : Type} (g : σ → α → Option σ) (a : List α) (x : α) (b : List α) (l : σ)
    (h : ∀ s, g s x = some s) : (a ++ x :: b).foldlM g l = (a ++ b).foldlM g l := by
  induction a generalizing l with
  | nil => rw [List.nil_append, List.nil_append, List.foldlM_cons, h]; rfl
  | cons y a ih =>
    rw [List.cons_append, List.cons_append, List.foldlM_cons, List.foldlM_cons]
    congr 1
    funext s
    exact ih s

/-- C177 fails: solid double yellow lines are left out, whatever else is drawn. -/
theorem double_yellow_violated (a b : List (Feature P)) (id : ℤ) (ps : List P) :
    plotFeatures (a ++ ⟨id, .roadLine 7 ps⟩ :: b) = plotFeatures (a ++ b) := by
  unfold plotFeatures
  rw [foldlM_congr_mid _ _ _ _ _ fun _ => rfl]

/-- C177 fails: stop signs are lines of one point instead of large markers, lanes are not wider than other lines, two neighboring
features with one identifier are joined, and maps without points and polygons without points are errors. -/
theorem plot_violated (p q : P) :
    plotFeatures [⟨1, .stopSign p⟩] = some ([(p, "red")], [.lines [p] "red" "solid" 15]) ∧
    plotFeatures [⟨1, .lane 2 [p, q]⟩] = some ([(p, "royalblue"), (q, "royalblue")], [.lines [p, q] "royalblue" "solid" 15]) ∧
    plotFeatures [⟨1, .stopSign p⟩, ⟨1, .roadEdge 1 [q]⟩] = some ([(p, "red"), (q, "green")], [.lines [p, q] "red" "solid" 15]) ∧
    plotFeatures ([] : List (Feature P)) = none ∧ plotFeatures [⟨1, .stopSign p⟩, ⟨2, .crosswalk []⟩] = none := by
  refine ⟨?_, ?_, ?_, rfl, rfl⟩
  · simp [plotFeatures, addFeature, addPoints, plotPoints, runs_cons, runs_nil, trace_eq, lineStyle]
  · simp [plotFeatures, addFeature, addPoints, plotPoints, runs_cons, runs_nil, trace_eq, lineStyle, laneTypes]
  · simp [plotFeatures, addFeature, addPoints, plotPoints, runs_cons, runs_nil, trace_eq, lineStyle, roadEdgeTypes]

/-- The hypotheses of `plot_spec_partial` are met by a lane and a crosswalk. -/
example (p q r : P) : let fs : List (Feature P) := [⟨1, .lane 2 [p, q]⟩, ⟨2, .crosswalk [p, q, r]⟩]
    (fs.map Feature.id).Nodup ∧ (∀ f ∈ fs, Drawable f) ∧ ∃ f ∈ fs, outline f.data ≠ [] := by
  refine ⟨by simp, ?_, _, List.mem_cons_self, by simp [outline]⟩
  intro f hf
  simp at hf
  rcases hf with rfl | rfl <;> simp [Drawable, style]

end

/-! ## Simulated agents -/

/-- Specification: the points of a rectangle of matplotlib: its corner and its sides, turned about the corner; angles are degrees. -/
def Rect.covers (r : Rect) (p : ℝ × ℝ) : Prop :=
  ∃ s t : ℝ, 0 ≤ s ∧ s ≤ r.width ∧ 0 ≤ t ∧ t ≤ r.height ∧
    p.1 = r.xy.1 + s * Real.cos (r.angle * Real.pi / 180) - t * Real.sin (r.angle * Real.pi / 180) ∧
    p.2 = r.xy.2 + s * Real.sin (r.angle * Real.pi / 180) + t * Real.cos (r.angle * Real.pi / 180)

/-- Specification: the points of a box: seen from its center and along its heading they are within half its length and width. -/
def InBox (x y yaw length width : ℝ) (p : ℝ × ℝ) : Prop :=
  |(p.1 - x) * Real.cos yaw + (p.2 - y) * Real.sin yaw| ≤ length / 2 ∧
  |-(p.1 - x) * Real.sin yaw + (p.2 - y) * Real.cos yaw| ≤ width / 2

/-- C178: the rectangle covers exactly the box. -/
theorem bboxPatch_covers {x y yaw length width : ℝ} {color : ℤ} {r : Rect} (h : bboxPatch x y yaw length width color = some r)
    (p : ℝ × ℝ) : r.covers p ↔ InBox x y yaw length width p := by
  unfold bboxPatch at h
  simp only [Option.map_eq_some_iff] at h
  obtain ⟨c, -, rfl⟩ := h
  have ha : yaw * (180 / Real.pi) * Real.pi / 180 = yaw := by
    have := Real.pi_ne_zero
    field_simp
  have hsc := Real.sin_sq_add_cos_sq yaw
  unfold Rect.covers InBox
  simp only [ha, abs_le]
  constructor
  · rintro ⟨s, t, s0, s1, t0, t1, e1, e2⟩
    have k1 : (p.1 - x) * Real.cos yaw + (p.2 - y) * Real.sin yaw = s - length / 2 := by
      rw [e1, e2]
      linear_combination (s - length / 2) * hsc
    have k2 : -(p.1 - x) * Real.sin yaw + (p.2 - y) * Real.cos yaw = t - width / 2 := by
      rw [e1, e2]
      linear_combination (t - width / 2) * hsc
    rw [k1, k2]
    refine ⟨⟨?_, ?_⟩, ?_, ?_⟩ <;> linarith
  · rintro ⟨⟨a1, a2⟩, b1, b2⟩
    refine ⟨(p.1 - x) * Real.cos yaw + (p.2 - y) * Real.sin yaw + length / 2,
      -(p.1 - x) * Real.sin yaw + (p.2 - y) * Real.cos yaw + width / 2, by linarith, by linarith, by linarith, by linarith, ?_, ?_⟩
    · linear_combination (x - p.1) * hsc
    · linear_combination (y - p.2) * hsc

/-- C178: there is a rectangle if and only if the color is one of six, counted from either end. -/
theorem bboxPatch_iff (x y yaw length width : ℝ) (color : ℤ) :
    (bboxPatch x y yaw length width color).isSome ↔ -6 ≤ color ∧ color < 6 := by
  unfold bboxPatch index
  simp only [Option.isSome_map]
  push_cast
  split
  · simp; omega
  · split
    · simp; omega
    · simp; omega

theorem removeFrom_length {α : Type} : ∀ (k i : ℕ) (l : List α), l.length = i + k → (removeFrom i l).length = i + k / 2 := by
  intro k
  induction k using Nat.strong_induction_on with
  | _ k ih =>
    intro i l hl
    unfold removeFrom
    split
    · rename_i h
      have h1 : (l.eraseIdx i).length = i + (k - 1) := by rw [List.length_eraseIdx_of_lt h]; omega
      by_cases h2 : k = 1
      · subst h2
        unfold removeFrom
        rw [dif_neg (by omega), h1]
      · rw [ih (k - 2) (by omega) (i + 1) _ (by omega)]
        omega
    · omega

/-- C178: the loops that remove patches remove all of them, although each pass over the shrinking list leaves every second one. -/
theorem removeAll_nil {α : Type} (l : List α) : removeAll l = [] := by
  have key : ∀ (n : ℕ) (l : List α), l.length ≤ n → ((fun l : List α => removeFrom 0 l)^[n] l) = [] := by
    intro n
    induction n with
    | zero => intro l h; show l = []; exact List.length_eq_zero_iff.1 (by omega)
    | succ n ih =>
      intro l h
      rw [Function.iterate_succ_apply]
      apply ih
      rw [removeFrom_length l.length 0 l (by omega)]
      omega
  exact key _ l (le_refl _)

/-- Specification: the entry of an array for an object and a step. -/
def entry {α : Type} (a : List (List α)) (i t : ℕ) : Option α := (a[i]?).bind fun r => r[t]?

theorem column_getElem {α : Type} {a : List (List α)} {t : ℕ} {c : List α} (h : column a t = some c) :
    c.length = a.length ∧ ∀ i, c[i]? = entry a i t := by
  unfold column at h
  unfold entry
  induction a generalizing c with
  | nil => simp at h; subst h; simp
  | cons r a ih =>
    rw [List.mapM_cons] at h
    simp only [Option.bind_eq_bind, Option.bind_eq_some_iff, Option.pure_def, Option.some.injEq] at h
    obtain ⟨v, hv, c', hc', rfl⟩ := h
    obtain ⟨h1, h2⟩ := ih hc'
    refine ⟨by simp [h1], fun i => ?_⟩
    cases i with
    | zero => simpa using hv.symm
    | succ i => simpa using h2 i

theorem mapM_range {α : Type} {f : ℕ → Option α} {n : ℕ} {l : List α} (h : (List.range n).mapM f = some l) :
    l.length = n ∧ ∀ i, i < n → l[i]? = f i := by
  induction n generalizing l with
  | zero => simp at h; subst h; simp
  | succ n ih =>
    rw [List.range_succ, List.mapM_append] at h
    simp only [Option.bind_eq_bind, Option.bind_eq_some_iff, Option.pure_def, Option.some.injEq, List.mapM_cons, List.mapM_nil] at h
    obtain ⟨l', hl', l'', ⟨v, hv, w, hw, hvw⟩, rfl⟩ := h
    subst hw hvw
    obtain ⟨h1, h2⟩ := ih hl'
    refine ⟨by simp [h1], fun i hi => ?_⟩
    by_cases hlt : i < n
    · rw [List.getElem?_append_left (by omega)]; exact h2 i hlt
    · have : i = n := by omega
      subst this
      rw [List.getElem?_append_right (by omega), h1, Nat.sub_self, hv]; rfl

/-- C178: after drawing a step there is one rectangle per object, that of its state in this step, and nothing that was there before. -/
theorem animate_spec {s : States} {before after : List Rect} {t : ℕ} (h : animate s before t = some after) :
    after.length = s.x.length ∧ ∀ i, i < s.x.length → ∃ x y yaw length width color, entry s.x i t = some x ∧ entry s.y i t = some y ∧
      entry s.yaw i t = some yaw ∧ entry s.length i t = some length ∧ entry s.width i t = some width ∧ entry s.color i t = some color ∧
      after[i]? = bboxPatch x y yaw length width color ∧ after[i]?.isSome := by
  unfold animate at h
  simp only [Option.bind_eq_bind, Option.bind_eq_some_iff, Option.pure_def, Option.some.injEq] at h
  obtain ⟨cx, hx, cy, hy, ca, ha, cl, hl, cw, hw, cc, hc, boxes, hb, rfl⟩ := h
  rw [removeAll_nil, List.nil_append]
  obtain ⟨x1, x2⟩ := column_getElem hx
  unfold currentObjects at hb
  obtain ⟨b1, b2⟩ := mapM_range hb
  rw [x1] at b1 b2
  refine ⟨b1, fun i hi => ?_⟩
  have hb := b2 i hi
  have hs : boxes[i]?.isSome := by rw [List.getElem?_eq_getElem (by omega)]; rfl
  obtain ⟨r, hr⟩ := Option.isSome_iff_exists.1 hs
  rw [hr] at hb
  have hb' := hb.symm
  unfold boxOf at hb'
  simp only [Option.bind_eq_bind, Option.bind_eq_some_iff] at hb'
  obtain ⟨x, ex, y, ey, a, ea, l, el, w, ew, c, ec, e⟩ := hb'
  rw [x2] at ex
  rw [(column_getElem hy).2] at ey
  rw [(column_getElem ha).2] at ea
  rw [(column_getElem hl).2] at el
  rw [(column_getElem hw).2] at ew
  rw [(column_getElem hc).2] at ec
  exact ⟨x, y, a, l, w, c, ex, ey, ea, el, ew, ec, by rw [hr, e], hs⟩

/-- C178: what is drawn for a step does not depend on the steps that were drawn before. -/
theorem animate_history (s : States) (before before' : List Rect) (t : ℕ) : animate s before t = animate s before' t := by
  unfold animate
  simp only [removeAll_nil]

/-- C178: the map shows every road edge and, lighter, every road line, in their order. -/
theorem addMap_spec_partial {P : Type} {features : List (Feature P)}
    (h : ∀ f ∈ features, (∀ t, f.data ≠ .roadEdge t []) ∧ ∀ t, f.data ≠ .roadLine t []) :
    addMap features = some (features.filterMap fun f => match f.data with
      | .roadEdge _ ps => some ⟨ps, 10⟩
      | .roadLine _ ps => some ⟨ps, 5⟩
      | _ => none) := by
  unfold addMap
  induction features with
  | nil => rfl
  | cons f fs ih =>
    have ih := ih fun g hg => h g (by simp [hg])
    obtain ⟨h1, h2⟩ := h f (by simp)
    obtain ⟨r, hr, hrs⟩ := Option.map_eq_some_iff.1 ih
    rw [List.mapM_cons, hr, List.filterMap_cons, ← hrs]
    obtain ⟨id, d⟩ := f
    cases d with
    | roadEdge t ps =>
      cases ps with
      | nil => exact absurd rfl (h1 t)
      | cons p ps => rfl
    | roadLine t ps =>
      cases ps with
      | nil => exact absurd rfl (h2 t)
      | cons p ps => rfl
    | _ => rfl

/-- C178 fails: a road edge without points is an error. -/
theorem addMap_violated {P : Type} (id : ℤ) (t : ℕ) : addMap [(⟨id, .roadEdge t []⟩ : Feature P)] = none := rfl

/-- A step can be drawn. -/
example (r : Rect) : (animate ⟨[[0, 1]], [[2, 3]], [[0, 0]], [[4, 4]], [[2, 2]], [[0, -1]]⟩ [r] 1).isSome := by
  have := (bboxPatch_iff 1 3 0 4 2 (-1)).2 (by norm_num)
  obtain ⟨v, hv⟩ := Option.isSome_iff_exists.1 this
  simp [animate, column, currentObjects, boxOf, hv]

end Verif.Maps
