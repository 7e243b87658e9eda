import Verif.Props.PoseTensors
import Verif.Props.RaysFrame
import Verif.Lemmas.ListM
import Verif.Model.AssetTutorial

/-! Properties of the code of tutorial/tutorial_keypoints.ipynb (C213) and tutorial/tutorial_object_asset.ipynb (C214, C215). -/

namespace Verif.AssetTutorial

open Verif.ListM Verif.Boxes Verif.Pose Verif.PoseTensors Verif.Rays

/-! ### C213: key points -/

/-- Specification: the labels that have key points. -/
def withPoints (labels : List (LabelBox × Option (List (ℤ × (V3 × Bool))))) : List (LabelBox × List (ℤ × (V3 × Bool))) :=
  labels.filterMap fun l => l.2.map fun ks => (l.1, ks)

theorem laserRows_eq {order : List ℤ} (ho : order ≠ []) (labels : List (LabelBox × Option (List (ℤ × (V3 × Bool))))) :
    laserRows order labels = some ((withPoints labels).map fun l =>
      (⟨order.map fun t => (entry l.1.center l.2 t).1, order.map fun t => (entry l.1.center l.2 t).2⟩, laserBox l.1)) := by
  unfold laserRows
  apply forall₂_mapM
  rw [List.forall₂_map_right_iff]
  unfold withPoints
  rw [List.forall₂_same]
  intro l _
  dsimp only
  rw [laserKeypoints_eq _ _ ho]
  rfl

/-- **C213, what holds**: the tensors have one row per label with key points, in order: for each type the last key point of that type, or the center of the
box if there is none; the boxes are those of the same labels. -/
theorem laserData_partial {order : List ℤ} (ho : order ≠ []) (labels : List (LabelBox × Option (List (ℤ × (V3 × Bool))))) (hl : withPoints labels ≠ []) :
    laserData order labels = some
      (⟨(withPoints labels).map fun l => order.map fun t => (entry l.1.center l.2 t).1,
        (withPoints labels).map fun l => order.map fun t => (entry l.1.center l.2 t).2, order.length⟩,
       ⟨(withPoints labels).map fun l => l.1.center, (withPoints labels).map fun l => laserSize l.1.size,
        some ((withPoints labels).map fun l => l.1.heading)⟩) := by
  have hb : stackBoxes (((withPoints labels).map Prod.fst).map laserBox) = _ := stackBoxes_laser (by simpa using hl)
  unfold laserData
  rw [laserRows_eq ho]
  simp only [Option.bind_eq_bind, Option.bind_some, List.map_map, Function.comp_def] at hb ⊢
  rw [hb]
  unfold stackKeypoints stack
  rw [if_neg (by simpa using hl), if_neg (by simpa using hl)]
  simp [Function.comp_def]

/-- **C213 is violated**: a frame without key points raises rather than giving no rows. -/
theorem laserData_violated (order : List ℤ) (ho : order ≠ []) (labels : List (LabelBox × Option (List (ℤ × (V3 × Bool))))) (hl : withPoints labels = []) :
    laserData order labels = none := by
  unfold laserData
  rw [laserRows_eq ho, hl]
  rfl

theorem find_proto : ∀ (order : List ℤ) (locs : List V3) (vis : List ℤ), locs.length = order.length → vis.length = order.length → order.Nodup →
    ∀ (i : ℕ) t, order[i]? = some t → ∃ p v, locs[i]? = some p ∧ vis[i]? = some v ∧
      ∀ k, k ∈ keypointsProto locs vis order → k.1 = t → v ≠ 0 ∧ k = (t, p, false) := by
  intro order locs vis h1 h2 hn i t hi
  obtain ⟨hi1, e⟩ := List.getElem?_eq_some_iff.1 hi
  refine ⟨locs[i], vis[i], List.getElem?_eq_getElem (by omega), List.getElem?_eq_getElem (by omega), ?_⟩
  intro k hk ht
  obtain ⟨⟨p, v, o⟩, hm, he⟩ := List.mem_filterMap.1 hk
  split_ifs at he with hv
  have he := Option.some.inj he
  subst he
  obtain ⟨j, hj, e2⟩ := List.getElem_of_mem hm
  rw [List.getElem_zip, List.getElem_zip, Prod.mk.injEq, Prod.mk.injEq] at e2
  simp only [List.length_zip] at hj
  have ht : o = t := ht
  have hij : j = i := by
    apply (List.Nodup.getElem_inj_iff hn (hi := by omega) (hj := hi1)).1
    rw [e2.2.2, e, ht]
  subst hij
  exact ⟨by rw [e2.2.1]; exact hv, by rw [e2.1, ht]⟩

theorem mem_proto {order : List ℤ} {locs : List V3} {vis : List ℤ} {i : ℕ} {t v : ℤ} {p : V3} (h1 : order[i]? = some t) (h2 : locs[i]? = some p)
    (h3 : vis[i]? = some v) (hv : v ≠ 0) : (t, p, false) ∈ keypointsProto locs vis order := by
  apply List.mem_filterMap.2
  refine ⟨(p, v, t), ?_, by simp [hv]⟩
  apply List.mem_of_getElem? (i := i)
  rw [List.getElem?_zip_eq_some]
  exact ⟨h2, List.getElem?_zip_eq_some.2 ⟨h3, h1⟩⟩

/-- **C213, what holds**: reading the key points that were written gives the locations of those that were not missing, each for its type, as visible; the
others have visibility 0. -/
theorem proto_round_partial {order : List ℤ} {locs : List V3} {vis : List ℤ} (ho : order ≠ []) (h1 : locs.length = order.length)
    (h2 : vis.length = order.length) (hn : order.Nodup) (default : V3) :
    ∃ row, laserKeypoints (keypointsProto locs vis order) default order = some row ∧ row.location.length = order.length ∧
      row.visibility.length = order.length ∧ ∀ (i : ℕ) p v, locs[i]? = some p → vis[i]? = some v →
        (v ≠ 0 → row.location[i]? = some p ∧ row.visibility[i]? = some 2) ∧
        (v = 0 → row.location[i]? = some default ∧ row.visibility[i]? = some 0) := by
  refine ⟨_, laserKeypoints_eq _ _ ho, by simp, by simp, ?_⟩
  intro i p v hp hv
  have hi : i < order.length := by have := (List.getElem?_eq_some_iff.1 hp).1; omega
  obtain ⟨p', v', e1, e2, e3⟩ := find_proto order locs vis h1 h2 hn i _ (List.getElem?_eq_getElem hi)
  rw [hp] at e1; rw [hv] at e2
  have e1 := Option.some.inj e1
  have e2 := Option.some.inj e2
  subst e1 e2
  simp only [List.getElem?_map, List.getElem?_eq_getElem hi, Option.map_some, Option.some.injEq]
  constructor
  · intro hne
    have hmem := mem_proto (List.getElem?_eq_getElem hi) hp hv hne
    have hs : ((keypointsProto locs vis order).reverse.find? fun k => k.1 == order[i]).isSome := by
      rw [List.find?_isSome]; exact ⟨_, by simpa using hmem, by simp⟩
    obtain ⟨k, hk⟩ := Option.isSome_iff_exists.1 hs
    have hk1 := List.mem_of_find?_eq_some hk
    have hk2 := List.find?_some hk
    obtain ⟨_, rfl⟩ := e3 k (by simpa using hk1) (by simpa using hk2)
    unfold entry
    rw [hk]
    simp
  · rintro rfl
    have hno : ((keypointsProto locs vis order).reverse.find? fun k => k.1 == order[i]) = none := by
      rw [List.find?_eq_none]
      intro k hk hk2
      exact (e3 k (by simpa using hk) (by simpa using hk2)).1 rfl
    unfold entry
    rw [hno]
    simp

/-- **C213 is violated**: a key point that is given as occluded, which is visibility 1, is submitted as visible. -/
theorem occluded_violated (p : V3) (t : ℤ) : keypointsProto [p] [1] [t] = [(t, p, false)] := rfl

/-- **C213**: the submission has the objects detected in each frame, in order, with the name and time of the frame. -/
theorem estimates_spec (order : List ℤ) (detect : ℕ → List (List V3 × List ℤ)) (frames : List (String × ℕ)) :
    (∀ e ∈ estimates order detect frames, ∃ (i : ℕ) (f : String × ℕ), frames[i]? = some f ∧ e.context = f.1 ∧ e.time = f.2 ∧
      ∃ d ∈ detect i, e.keypoints = keypointsProto d.1 d.2 order) ∧
    (∀ (i : ℕ) f, frames[i]? = some f → ∀ d ∈ detect i, ⟨f.1, f.2, keypointsProto d.1 d.2 order⟩ ∈ estimates order detect frames) ∧
    (estimates order detect frames).length = ((List.range frames.length).map fun i => (detect i).length).sum := by
  unfold estimates
  refine ⟨?_, ?_, ?_⟩
  · intro e he
    obtain ⟨l, hl, hel⟩ := List.mem_flatten.1 he
    obtain ⟨⟨f, i⟩, hf, rfl⟩ := List.mem_map.1 hl
    obtain ⟨d, hd, rfl⟩ := List.mem_map.1 hel
    exact ⟨i, f, List.mk_mem_zipIdx_iff_getElem?.1 hf, rfl, rfl, d, hd, rfl⟩
  · intro i f hf d hd
    exact List.mem_flatten.2 ⟨_, List.mem_map.2 ⟨(f, i), List.mk_mem_zipIdx_iff_getElem?.2 hf, rfl⟩, List.mem_map.2 ⟨d, hd, rfl⟩⟩
  · rw [List.length_flatten, List.map_map]
    congr 1
    apply List.ext_getElem
    · simp
    · intro i h1 h2; simp

/-! ### C214: masks and grids -/

/-- **C214**: outside of the mask the color stays; inside it is the mixture, rounded down, which lies between both colors. -/
theorem colorMask_spec {alpha : ℝ} (h0 : 0 ≤ alpha) (h1 : alpha ≤ 1) (color value : ℕ) :
    colorMask false alpha color value = value ∧ ((min value color : ℕ) : ℤ) ≤ colorMask true alpha color value ∧
    colorMask true alpha color value ≤ ((max value color : ℕ) : ℤ) ∧
    (colorMask true alpha color value : ℝ) ≤ (1 - alpha) * value + alpha * color ∧
    (1 - alpha) * value + alpha * color < colorMask true alpha color value + 1 := by
  have hlo : (min value color : ℝ) ≤ (value : ℝ) * (1 - alpha) + alpha * color := by
    have a1 : (min value color : ℝ) ≤ value := min_le_left _ _
    have a2 : (min value color : ℝ) ≤ color := min_le_right _ _
    nlinarith
  have hhi : (value : ℝ) * (1 - alpha) + alpha * color ≤ (max value color : ℝ) := by
    have a1 : (value : ℝ) ≤ (max value color : ℝ) := le_max_left _ _
    have a2 : (color : ℝ) ≤ (max value color : ℝ) := le_max_right _ _
    nlinarith
  unfold colorMask
  rw [if_pos rfl]
  refine ⟨rfl, ?_, ?_, ?_, ?_⟩
  · rw [Int.le_floor]
    push_cast
    exact hlo
  · have h2 := (Int.floor_le ((value : ℝ) * (1 - alpha) + alpha * color)).trans hhi
    have : ((⌊(value : ℝ) * (1 - alpha) + alpha * color⌋ : ℤ) : ℝ) ≤ (((max value color : ℕ) : ℤ) : ℝ) := by push_cast; exact h2
    exact_mod_cast this
  · have := Int.floor_le ((value : ℝ) * (1 - alpha) + alpha * color); linarith
  · have := Int.lt_floor_add_one ((value : ℝ) * (1 - alpha) + alpha * color); linarith

/-- **C214**: every pixel is treated on its own. -/
theorem applyColorMask_spec {image : List (ℕ × ℕ × ℕ)} {mask : List Bool} (hl : mask.length = image.length) (color : ℕ × ℕ × ℕ) (alpha : ℝ) :
    (applyColorMask image mask color alpha).length = image.length ∧ ∀ (i : ℕ) p m, image[i]? = some p → mask[i]? = some m →
      (applyColorMask image mask color alpha)[i]? =
        some (colorMask m alpha color.1 p.1, colorMask m alpha color.2.1 p.2.1, colorMask m alpha color.2.2 p.2.2) := by
  refine ⟨by simp [applyColorMask, hl], ?_⟩
  intro i p m hp hm
  unfold applyColorMask
  have hz : (image.zip mask)[i]? = some (p, m) := List.getElem?_zip_eq_some.2 ⟨hp, hm⟩
  rw [List.getElem?_map, hz]
  rfl

/-- **C214, what holds**: images in one row of at least two places are shown from left to right. -/
theorem grid_partial {w n : ℕ} (hw : 2 ≤ w) (hn : n ≤ w) : grid 1 w n = some ((List.range n).map fun i => (0, i)) := by
  unfold grid
  apply forall₂_mapM
  rw [List.forall₂_map_right_iff, List.forall₂_same]
  intro i hi
  have : i < n := by simpa using hi
  rw [if_neg (by omega), if_pos rfl, if_pos (by omega)]

/-- **C214 is violated**: a single image raises, and so does every grid of several rows and columns. -/
theorem grid_violated (n : ℕ) : grid 1 1 (n + 1) = none ∧ ∀ h w, 2 ≤ h → 2 ≤ w → grid h w (n + 1) = none := by
  have key : ∀ (g : ℕ → Option (ℕ × ℕ)), g 0 = none → (List.range (n + 1)).mapM g = none := by
    intro g h
    rw [List.range_succ_eq_map, List.mapM_cons, h]
    rfl
  constructor
  · exact key _ (by simp)
  · intro h w hh hw
    exact key _ (by simp [show h ≠ 1 by omega, show w ≠ 1 by omega])

/-- **C214, what holds**: for the rays and the box that the variables hold, the mask has the rays that meet the box. -/
theorem rayMask_partial {origins directions : List V3} {size : V3} (hs : ∀ i, 0 ≤ size i) (hl : origins.length = directions.length)
    (hd : ∀ d ∈ directions, ∀ i, d i ≠ 0) : ∃ mask, rayMask ⟨origins, directions, size⟩ origins directions size = some mask ∧
      mask.length = origins.length ∧ ∀ (i : ℕ) o d m, origins[i]? = some o → directions[i]? = some d → mask[i]? = some m →
        (m = true ↔ ∃ t, 0 < t ∧ InBox size (along o d t)) := by
  obtain ⟨hits, h1, h2, h3⟩ := intersect_spec hs hl hd
  refine ⟨hits.map Hit.flag, ?_, by simpa using h2, ?_⟩
  · unfold rayMask
    rw [h1]
    simp [h2]
  · intro i o d m ho hd' hm
    rw [List.getElem?_map, Option.map_eq_some_iff] at hm
    obtain ⟨h, hh, rfl⟩ := hm
    exact (h3 i o d h ho hd' hh).1

/-- **C214 is violated**: the mask does not depend on the directions and box given, and of the origins only on their number. -/
theorem rayMask_violated (g : Globals) (origins origins' directions directions' : List V3) (size size' : V3) (h : origins.length = origins'.length) :
    rayMask g origins directions size = rayMask g origins' directions' size' := by
  unfold rayMask
  rw [h]

/-! ### C215: points of assets -/

/-- **C215**: the points shown are those of the pixels in both masks, in order, at their distance along their rays, with their colors. -/
theorem unproject_spec {dists : List ℝ} {directions origins : List V3} {colors : List (ℕ × ℕ × ℕ)} {masks objects : List ℕ} (p : V3) (c : ℕ × ℕ × ℕ) :
    (p, c) ∈ unproject dists directions origins colors masks objects ↔ ∃ (i : ℕ) (t : ℝ) (d o : V3) (m b : ℕ), dists[i]? = some t ∧ directions[i]? = some d ∧
      origins[i]? = some o ∧ colors[i]? = some c ∧ masks[i]? = some m ∧ objects[i]? = some b ∧ 0 < m ∧ 0 < b ∧ p = along o d t := by
  unfold unproject
  rw [List.mem_map]
  constructor
  · rintro ⟨⟨t, d, o, c', m, b⟩, hm, e⟩
    rw [List.mem_filter] at hm
    obtain ⟨hm, hpos⟩ := hm
    rw [Prod.mk.injEq] at e
    obtain ⟨i, hi⟩ := List.mem_iff_getElem?.1 hm
    simp only [List.getElem?_zip_eq_some] at hi
    obtain ⟨h1, h2, h3, h4, h5, h6⟩ := hi
    have hpos : 0 < m * b := by simpa using hpos
    have e2 : c' = c := e.2
    subst e2
    refine ⟨i, t, d, o, m, b, h1, h2, h3, h4, h5, h6, Nat.pos_of_mul_pos_right hpos, Nat.pos_of_mul_pos_left hpos, ?_⟩
    rw [← e.1]
    funext k
    simp [along, add_comm]
  · rintro ⟨i, t, d, o, m, b, h1, h2, h3, h4, h5, h6, hm, hb, rfl⟩
    refine ⟨(t, d, o, c, m, b), List.mem_filter.2 ⟨?_, by simpa using Nat.mul_pos hm hb⟩, ?_⟩
    · apply List.mem_iff_getElem?.2
      refine ⟨i, ?_⟩
      simp only [List.getElem?_zip_eq_some]
      exact ⟨h1, h2, h3, h4, h5, h6⟩
    · rw [Prod.mk.injEq]
      refine ⟨?_, rfl⟩
      funext k
      simp [along, add_comm]

theorem filter_range {α β : Type} (l : List α) (p : α → Bool) (g : α → β) :
    (l.filter p).map g = (List.range l.length).filterMap fun i => l[i]?.bind fun x => if p x then some (g x) else none := by
  have h : (List.range l.length).map (fun i => l[i]?) = l.map some := by
    apply List.ext_getElem <;> simp
  have h2 : ((List.range l.length).map fun i => l[i]?).filterMap (fun o => o.bind fun x => if p x then some (g x) else none) =
      (List.range l.length).filterMap fun i => l[i]?.bind fun x => if p x then some (g x) else none := by
    rw [List.filterMap_map]; rfl
  rw [← h2, h, List.filterMap_map]
  induction l with
  | nil => rfl
  | cons a l ih =>
    have ih := ih (by apply List.ext_getElem <;> simp) (by rw [List.filterMap_map]; rfl)
    by_cases hp : p a <;> simp [hp] <;> simpa [Function.comp_def] using ih

/-- **C215**: one point per pixel in both masks, in the order of the pixels. -/
theorem unproject_order {dists : List ℝ} {directions origins : List V3} {colors : List (ℕ × ℕ × ℕ)} {masks objects : List ℕ}
    (h1 : directions.length = dists.length) (h2 : origins.length = dists.length) (h3 : colors.length = dists.length)
    (h4 : masks.length = dists.length) (h5 : objects.length = dists.length) :
    ∃ pixels : List ℕ, pixels.Pairwise (· < ·) ∧ (∀ i, i ∈ pixels ↔ i < dists.length ∧ 0 < masks.getD i 0 ∧ 0 < objects.getD i 0) ∧
      List.Forall₂ (fun (i : ℕ) (q : V3 × (ℕ × ℕ × ℕ)) => ∃ t d o, dists[i]? = some t ∧ directions[i]? = some d ∧ origins[i]? = some o ∧
        colors[i]? = some q.2 ∧ q.1 = along o d t) pixels (unproject dists directions origins colors masks objects) := by
  refine ⟨(List.range dists.length).filter fun i => 0 < masks.getD i 0 ∧ 0 < objects.getD i 0, List.pairwise_lt_range.filter _, ?_, ?_⟩
  · intro i; simp
  · unfold unproject
    rw [filter_range]
    have hlen : (dists.zip (directions.zip (origins.zip (colors.zip (masks.zip objects))))).length = dists.length := by
      simp only [List.length_zip]; omega
    rw [hlen]
    have key : ∀ is : List ℕ, (∀ i ∈ is, i < dists.length) → List.Forall₂ (fun (i : ℕ) (q : V3 × (ℕ × ℕ × ℕ)) => ∃ t d o, dists[i]? = some t ∧
        directions[i]? = some d ∧ origins[i]? = some o ∧ colors[i]? = some q.2 ∧ q.1 = along o d t)
        (is.filter fun i => 0 < masks.getD i 0 ∧ 0 < objects.getD i 0)
        (is.filterMap fun i => (dists.zip (directions.zip (origins.zip (colors.zip (masks.zip objects)))))[i]?.bind fun p =>
          if 0 < p.2.2.2.2.1 * p.2.2.2.2.2 then some ((fun k => p.1 * p.2.1 k + p.2.2.1 k : V3), p.2.2.2.1) else none) := by
      intro is his
      induction is with
      | nil => exact .nil
      | cons i is ih =>
        have hi := his i (by simp)
        have ih := ih fun j hj => his j (by simp [hj])
        have hz : (dists.zip (directions.zip (origins.zip (colors.zip (masks.zip objects)))))[i]? =
            some (dists[i], directions[i], origins[i], colors[i], masks[i], objects[i]) := by
          simp only [List.getElem?_zip_eq_some]
          refine ⟨?_, ?_, ?_, ?_, ?_, ?_⟩ <;> exact List.getElem?_eq_getElem (by omega)
        rw [List.filter_cons, List.filterMap_cons, hz]
        simp only [Option.bind_some]
        have e1 : masks.getD i 0 = masks[i] := by simp [show i < masks.length by omega]
        have e2 : objects.getD i 0 = objects[i] := by simp [show i < objects.length by omega]
        by_cases hb : 0 < masks[i] ∧ 0 < objects[i]
        · rw [if_pos (by rw [e1, e2]; simpa using hb), if_pos (Nat.mul_pos hb.1 hb.2)]
          refine .cons ⟨dists[i], directions[i], origins[i], List.getElem?_eq_getElem _, List.getElem?_eq_getElem _, List.getElem?_eq_getElem _,
            List.getElem?_eq_getElem _, ?_⟩ ih
          funext k
          simp [along, add_comm]
        · rw [if_neg (by rw [e1, e2]; simpa using hb),
            if_neg (fun h => hb ⟨Nat.pos_of_mul_pos_right h, Nat.pos_of_mul_pos_left h⟩)]
          exact ih
    have := key (List.range dists.length) (by simp)
    simpa using this

/-- **C215**: points are moved from the labelled box into the vehicle and from there into the refined box. -/
theorem refined_spec (points : List V3) (box : Box7) (m : M4) : refined points box m = points.map fun u => applyPose m (boxPoint box u) := by
  unfold refined
  rw [pointsToFrame_map, pointsFromBox_map, List.map_map]
  rfl

/-- **C215**: if the refined pose is that of the labelled box, the points stay. -/
theorem refined_same (points : List V3) (box : Box7) (m : M4) (h : ∀ p, applyPose m p = toBoxOne box p) : refined points box m = points := by
  rw [refined_spec]
  conv_rhs => rw [← List.map_id points]
  apply List.map_congr_left
  intro u _
  rw [h, toBox_boxPoint]
  rfl

/-- Such a pose: half a turn about the vertical axis around (2, 0, 0). -/
example : ∃ m : M4, ∀ p, applyPose m p = toBoxOne ⟨![2, 0, 0], ![4, 2, 2], Real.pi⟩ p := by
  refine ⟨!![-1, 0, 0, 2; 0, -1, 0, 0; 0, 0, 1, 0; 0, 0, 0, 1], ?_⟩
  intro p
  funext i
  fin_cases i <;> simp [applyPose, toBoxOne, rotateOne]
  ring

end Verif.AssetTutorial
