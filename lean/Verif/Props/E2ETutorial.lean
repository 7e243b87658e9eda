import Mathlib.Tactic.Ring
import Mathlib.Tactic.Linarith
import Mathlib.Tactic.NormNum
import Verif.Lemmas.ListM
import Verif.Model.E2ETutorial

/-! Properties of the code of tutorial/tutorial_vision_based_e2e_driving.ipynb (C201, C202, C203). -/

namespace Verif.E2ETutorial

open Verif.ListM

/-! ### C201: pictures of the front -/

theorem pick_partial {I C : Type} {images : List (ℕ × I)} {cals : List (ℕ × C)} (h : images.map Prod.fst = cals.map Prod.fst) (name : ℕ) :
    (pick images cals name = some none ∧ ∀ p ∈ images, p.1 ≠ name) ∨
    ∃ img cal, pick images cals name = some (some (img, name, cal)) ∧ (name, img) ∈ images ∧ (name, cal) ∈ cals := by
  unfold pick
  have hlen : images.length = cals.length := by simpa using congrArg List.length h
  cases hf : images.findIdx? fun p => p.1 = name with
  | none =>
    left
    refine ⟨rfl, ?_⟩
    intro p hp
    rw [List.findIdx?_eq_none_iff] at hf
    simpa using hf p hp
  | some i =>
    right
    rw [List.findIdx?_eq_some_iff_getElem] at hf
    obtain ⟨hi, hn, _⟩ := hf
    have hi' : i < cals.length := by omega
    have hc : cals[i].1 = images[i].1 := by
      have := congrArg (fun l => l[i]?) h
      simp only [List.getElem?_map, List.getElem?_eq_getElem hi, List.getElem?_eq_getElem hi', Option.map_some, Option.some.injEq] at this
      exact this.symm
    have hn' : images[i].1 = name := by simpa using hn
    refine ⟨images[i].2, cals[i].2, ?_, ?_, ?_⟩
    · simp only [List.getElem?_eq_getElem hi, List.getElem?_eq_getElem hi', Option.bind_eq_bind, Option.bind_some, Option.pure_def]
      rw [← hn', ← hc]
    · rw [← hn']; exact List.getElem_mem hi
    · rw [← hn', ← hc]; exact List.getElem_mem hi'

/-- Specification: the cameras from left to right of which there are images, with their images and calibrations. -/
def IsFront {I C : Type} (images : List (ℕ × I)) (cals : List (ℕ × C)) (out : List I × List (ℕ × C)) : Prop :=
  out.2.map Prod.fst = [2, 1, 3].filter (fun n => n ∈ images.map Prod.fst) ∧ (∀ c ∈ out.2, c ∈ cals) ∧
    List.Forall₂ (fun img c => (c.1, img) ∈ images) out.1 out.2

/-- **C201, what holds**: if calibrations are in the order of the images, the images of the front cameras come from left to right, each with its own
calibration. -/
theorem front3_partial {I C : Type} {images : List (ℕ × I)} {cals : List (ℕ × C)} (h : images.map Prod.fst = cals.map Prod.fst) :
    ∃ out, front3 images cals = some out ∧ IsFront images cals out := by
  have key : ∀ names : List ℕ, ∃ l, names.mapM (pick images cals) = some l ∧
      (l.filterMap id).map (fun p => p.2.1) = names.filter (fun n => n ∈ images.map Prod.fst) ∧
      ∀ p ∈ l.filterMap id, (p.2.1, p.1) ∈ images ∧ p.2 ∈ cals := by
    intro names
    induction names with
    | nil => exact ⟨[], rfl, rfl, by simp⟩
    | cons n names ih =>
      obtain ⟨l, h1, h2, h3⟩ := ih
      rcases pick_partial h n with ⟨hp, hno⟩ | ⟨img, cal, hp, hm, hc⟩
      · refine ⟨none :: l, by simp [List.mapM_cons, hp, h1], ?_, by simpa using h3⟩
        rw [List.filter_cons, if_neg]
        · simpa using h2
        · simp only [decide_eq_true_eq, List.mem_map]
          rintro ⟨p, hp, e⟩
          exact hno p hp e
      · refine ⟨some (img, n, cal) :: l, by simp [List.mapM_cons, hp, h1], ?_, ?_⟩
        · rw [List.filter_cons, if_pos]
          · simp only [List.filterMap_cons, id, List.map_cons]
            exact congrArg (n :: ·) h2
          · simp only [decide_eq_true_eq, List.mem_map]
            exact ⟨_, hm, rfl⟩
        · intro p hp
          simp only [List.filterMap_cons, id] at hp
          rcases List.mem_cons.1 hp with rfl | hp
          · exact ⟨hm, hc⟩
          · exact h3 p hp
  obtain ⟨l, h1, h2, h3⟩ := key [2, 1, 3]
  refine ⟨((l.filterMap id).map Prod.fst, (l.filterMap id).map Prod.snd), ?_, ?_, ?_, ?_⟩
  · unfold front3; rw [h1]; rfl
  · rw [List.map_map]; exact h2
  · intro c hc
    obtain ⟨p, hp, rfl⟩ := List.mem_map.1 hc
    exact (h3 p hp).2
  · rw [List.forall₂_map_left_iff, List.forall₂_map_right_iff]
    rw [List.forall₂_same]
    intro p hp
    exact (h3 p hp).1

/-- **C201 is violated**: calibrations in another order than the images are put beside images of other cameras. -/
theorem front3_violated : ∃ (images : List (ℕ × String)) (cals : List (ℕ × Unit)), (images.map Prod.fst).Perm (cals.map Prod.fst) ∧
    front3 images cals = some (["front left", "front", "front right"], [(3, ()), (1, ()), (2, ())]) := by
  refine ⟨[(1, "front"), (2, "front left"), (3, "front right")], [(1, ()), (3, ()), (2, ())], ?_, ?_⟩
  · simpa using List.Perm.cons 1 (List.Perm.swap 3 2 [])
  · rfl

/-- **C201**: every way point is drawn where it is projected to. -/
theorem drawn_spec (points : List (ℝ × ℝ × Bool)) (size : ℕ) : (drawn points size).length = points.length ∧
    ∀ (i : ℕ) u v ok, points[i]? = some (u, v, ok) → ∃ d, (drawn points size)[i]? = some d ∧ d.radius = size ∧
      |(d.x : ℝ) - u| < 1 ∧ |(d.y : ℝ) - v| < 1 ∧ |(d.x : ℝ)| ≤ |u| ∧ |(d.y : ℝ)| ≤ |v| := by
  have key : ∀ x : ℝ, |(trunc x : ℝ) - x| < 1 ∧ |(trunc x : ℝ)| ≤ |x| := by
    intro x
    unfold trunc
    split_ifs with h
    · have h1 := Int.floor_le x
      have h2 := Int.lt_floor_add_one x
      have h3 : (0 : ℝ) ≤ ⌊x⌋ := by exact_mod_cast Int.floor_nonneg.2 h
      constructor
      · rw [abs_lt]; constructor <;> linarith
      · rw [abs_of_nonneg h3, abs_of_nonneg h]; exact h1
    · have h1 := Int.le_ceil x
      have h2 := Int.ceil_lt_add_one x
      have h3 : (⌈x⌉ : ℝ) ≤ 0 := by exact_mod_cast Int.ceil_le.2 (by push_cast; linarith)
      constructor
      · rw [abs_lt]; constructor <;> linarith
      · rw [abs_of_nonpos h3, abs_of_nonpos (by linarith)]; linarith
  refine ⟨by simp [drawn], ?_⟩
  intro i u v ok h
  refine ⟨⟨trunc u, trunc v, size⟩, by simp [drawn, h], rfl, (key u).1, (key v).1, (key u).2, (key v).2⟩

/-- A pixel of a disc. -/
def Disc.Covers (d : Disc) (x y : ℤ) : Prop := (x - d.x) ^ 2 + (y - d.y) ^ 2 ≤ (d.radius : ℤ) ^ 2

/-- **C201 is violated**: a way point that cannot be seen, for which the projection gives (-1, -1) and not ok, is drawn in the corner of the image. -/
theorem drawn_violated : ∃ d ∈ drawn [(-1, -1, false)] 15, d.Covers 0 0 := by
  refine ⟨⟨trunc (-1), trunc (-1), 15⟩, by simp [drawn], ?_⟩
  have : trunc (-1) = -1 := by
    unfold trunc
    rw [if_neg (by norm_num)]
    have : ((-1 : ℤ) : ℝ) = -1 := by norm_num
    rw [← this, Int.ceil_intCast]
  unfold Disc.Covers
  rw [this]
  norm_num

/-! ### C202: shards -/

theorem shards_take {P : Type} (l : List P) (k n : ℕ) :
    ((List.range n).map fun i => (l.drop (i * k)).take ((i + 1) * k - i * k)).flatten = l.take (n * k) := by
  induction n with
  | zero => simp
  | succ n ih =>
    rw [List.range_succ, List.map_append, List.flatten_append, ih, List.map_singleton, List.flatten_singleton]
    have : (n + 1) * k - n * k = k := by rw [Nat.succ_mul]; omega
    rw [this, Nat.succ_mul, List.take_add]

theorem le_ceilDiv {a b : ℕ} (hb : 0 < b) : a ≤ b * ceilDiv a b := by
  unfold ceilDiv
  have := Nat.div_add_mod (a + b - 1) b
  have := Nat.mod_lt (a + b - 1) hb
  omega

/-- **C202**: the predictions are cut into as many shards as asked for: read one after the other they are the predictions, so that none is lost,
repeated or moved, and none has more than the number of predictions divided by the number of shards, rounded up. -/
theorem shards_spec {P : Type} (predictions : List P) (n : ℕ) (hn : 0 < n) : ∃ out, shards predictions n = some out ∧ out.length = n ∧
    out.flatten = predictions ∧ ∀ s ∈ out, (s.length : ℝ) < predictions.length / n + 1 := by
  unfold shards
  rw [if_neg (by omega)]
  refine ⟨_, rfl, by simp, ?_, ?_⟩
  · rw [shards_take, List.take_of_length_le]
    exact le_ceilDiv hn
  · intro s hs
    obtain ⟨i, _, rfl⟩ := List.mem_map.1 hs
    have h1 : ((predictions.drop (i * ceilDiv predictions.length n)).take
        ((i + 1) * ceilDiv predictions.length n - i * ceilDiv predictions.length n)).length ≤ ceilDiv predictions.length n := by
      rw [List.length_take]
      have : (i + 1) * ceilDiv predictions.length n - i * ceilDiv predictions.length n = ceilDiv predictions.length n := by
        rw [Nat.succ_mul]; omega
      omega
    have h2 : (ceilDiv predictions.length n) * n ≤ predictions.length + n - 1 := Nat.div_mul_le_self _ _
    have hn' : (0 : ℝ) < n := by exact_mod_cast hn
    have h3 : ((ceilDiv predictions.length n : ℕ) : ℝ) * n < predictions.length + n := by
      have : ceilDiv predictions.length n * n < predictions.length + n := by omega
      exact_mod_cast this
    have h4 : (((predictions.drop (i * ceilDiv predictions.length n)).take
        ((i + 1) * ceilDiv predictions.length n - i * ceilDiv predictions.length n)).length : ℝ) ≤ (ceilDiv predictions.length n : ℕ) := by
      exact_mod_cast h1
    calc _ ≤ ((ceilDiv predictions.length n : ℕ) : ℝ) := h4
      _ < predictions.length / n + 1 := by
        rw [← sub_pos]
        have : (predictions.length : ℝ) / n + 1 - (ceilDiv predictions.length n : ℕ) =
            (predictions.length + n - (ceilDiv predictions.length n : ℕ) * n) / n := by
          field_simp
        rw [this]
        exact div_pos (by linarith) hn'

theorem shards_zero {P : Type} (predictions : List P) : shards predictions 0 = none := rfl

/-- The first shards are full, so the last ones may be empty although there are more predictions than shards. -/
example : shards [1, 2, 3, 4] 3 = some [[1, 2], [3, 4], []] := by decide

/-! ### C203: displacement -/

/-- **C203, what holds**: of trajectories of the same length, the displacement is the mean, over the steps of the mask, of the distances. -/
theorem averageDistance_partial (prediction observed : List (ℝ × ℝ)) (mask : List Bool) (h : prediction.length = observed.length)
    (hm : mask.length = observed.length) : averageDistance prediction observed mask =
      some (((((prediction.zip observed).zip mask).filter Prod.snd).map fun p => dist p.1.1 p.1.2).sum / max (mask.count true : ℝ) 1) := by
  unfold averageDistance broadcast
  rw [if_pos h]
  simp only [Option.bind_eq_bind, Option.bind_some]
  rw [if_pos (by simp [h, hm])]
  simp only [Option.bind_some, Option.pure_def, Option.some.injEq]
  congr 1
  clear hm h
  induction prediction generalizing observed mask with
  | nil => simp
  | cons p ps ih =>
    cases observed with
    | nil => simp
    | cons q qs =>
      cases mask with
      | nil => simp
      | cons b bs =>
        simp only [List.zipWith_cons_cons, List.sum_cons, List.zip_cons_cons, List.filter_cons]
        rw [ih]
        cases b <;> simp

theorem averageDistance_mean (prediction observed : List (ℝ × ℝ)) (h : prediction.length = observed.length) (hne : observed ≠ []) :
    averageDistance prediction observed (List.replicate observed.length true) =
      some ((List.zipWith dist prediction observed).sum / observed.length) := by
  rw [averageDistance_partial _ _ _ h (by simp)]
  have h1 : ((prediction.zip observed).zip (List.replicate observed.length true)).filter Prod.snd =
      (prediction.zip observed).zip (List.replicate observed.length true) := by
    rw [List.filter_eq_self]
    rintro ⟨a, b⟩ hab
    exact List.eq_of_mem_replicate (List.of_mem_zip hab).2
  rw [h1]
  have h2 : ((prediction.zip observed).zip (List.replicate observed.length true)).map (fun p => dist p.1.1 p.1.2) =
      List.zipWith dist prediction observed := by
    rw [show (fun p : ((ℝ × ℝ) × (ℝ × ℝ)) × Bool => dist p.1.1 p.1.2) = (fun q : (ℝ × ℝ) × (ℝ × ℝ) => dist q.1 q.2) ∘ Prod.fst from rfl,
      ← List.map_map, List.map_fst_zip (by simp [h])]
    simp [List.zip, List.map_zipWith]
  rw [h2]
  have hpos : (1 : ℝ) ≤ observed.length := by exact_mod_cast List.length_pos_of_ne_nil hne
  simp [List.count_replicate, max_eq_left hpos]

/-- **C203**: no displacement means the same trajectory. -/
theorem averageDistance_zero (prediction observed : List (ℝ × ℝ)) (h : prediction.length = observed.length) (hne : observed ≠ []) :
    averageDistance prediction observed (List.replicate observed.length true) = some 0 ↔ prediction = observed := by
  rw [averageDistance_mean _ _ h hne, Option.some.injEq, div_eq_zero_iff]
  have hpos : (observed.length : ℝ) ≠ 0 := by
    have : 0 < observed.length := List.length_pos_of_ne_nil hne
    exact_mod_cast this.ne'
  have key : ∀ p q : List (ℝ × ℝ), p.length = q.length → 0 ≤ (List.zipWith dist p q).sum ∧ ((List.zipWith dist p q).sum = 0 ↔ p = q) := by
    intro p
    induction p with
    | nil => intro q hq; cases q <;> simp_all
    | cons a p ih =>
      intro q hq
      cases q with
      | nil => simp at hq
      | cons b q =>
        obtain ⟨h1, h2⟩ := ih q (by simpa using hq)
        have hd : 0 ≤ dist a b := Real.sqrt_nonneg _
        have hz : dist a b = 0 ↔ a = b := by
          unfold dist
          rw [Real.sqrt_eq_zero (by positivity)]
          constructor
          · intro e
            have e1 : a.1 - b.1 = 0 := by nlinarith [sq_nonneg (a.1 - b.1), sq_nonneg (a.2 - b.2)]
            have e2 : a.2 - b.2 = 0 := by nlinarith [sq_nonneg (a.1 - b.1), sq_nonneg (a.2 - b.2)]
            exact Prod.ext (by linarith) (by linarith)
          · rintro rfl; ring
        rw [List.zipWith_cons_cons, List.sum_cons]
        refine ⟨by linarith, ?_⟩
        rw [List.cons.injEq, ← hz, ← h2]
        constructor
        · intro e; exact ⟨by linarith, by linarith⟩
        · rintro ⟨e1, e2⟩; rw [e1, e2]; ring
  rw [or_iff_left hpos]
  exact (key prediction observed h).2

/-- **C203 is violated**: a prediction of a single step is not refused but taken for a trajectory that stays there. -/
theorem single_step_violated (p : ℝ × ℝ) (observed : List (ℝ × ℝ)) (h : 1 < observed.length) :
    averageDistance [p] observed (List.replicate observed.length true) = averageDistance (List.replicate observed.length p) observed
      (List.replicate observed.length true) ∧ (averageDistance [p] observed (List.replicate observed.length true)).isSome := by
  have hne : observed ≠ [] := by intro e; rw [e] at h; simp at h
  have key : averageDistance [p] observed (List.replicate observed.length true) = averageDistance (List.replicate observed.length p) observed
      (List.replicate observed.length true) := by
    have e1 : broadcast dist [p] observed = some (observed.map fun y => dist p y) := by
      unfold broadcast
      rw [if_neg (by simp; omega)]
    have e2 : broadcast dist (List.replicate observed.length p) observed = some (observed.map fun y => dist p y) := by
      unfold broadcast
      rw [if_pos (by simp)]
      congr 1
      apply List.ext_getElem
      · simp
      · intro i h1 h2; simp
    unfold averageDistance
    rw [e1, e2]
  refine ⟨key, ?_⟩
  rw [key, averageDistance_mean _ _ (by simp) hne]
  rfl

/-- **C203 is violated**: if the truth has a single step, the distances are added and not averaged. -/
theorem single_truth_violated : averageDistance [(1, 0), (1, 0), (1, 0)] [(0, 0)] [true] = some 3 := by
  have hd : dist (1, 0) (0, 0) = 1 := by unfold dist; norm_num
  simp [averageDistance, broadcast, hd]
  norm_num

theorem dict_spec {T : Type} (l : List (String × T)) (k : String) : dict l k = (l.reverse.find? fun p => p.1 = k).map Prod.snd := by
  have key : ∀ (l : List (String × T)) (d : String → Option T), (l.foldl (fun (d : String → Option T) (p : String × T) => Function.update d p.1 (some p.2)) d) k =
      ((l.reverse.find? fun p => p.1 = k).map Prod.snd).or (d k) := by
    intro l
    induction l with
    | nil => intro d; simp
    | cons p l ih =>
      intro d
      rw [List.foldl_cons, ih, List.reverse_cons, List.find?_append]
      cases hf : l.reverse.find? fun p => p.1 = k with
      | some q => simp
      | none =>
        by_cases e : p.1 = k
        · subst e; simp
        · simp [e, Function.update_of_ne (Ne.symm e)]
  unfold dict
  rw [key]
  simp

/-- **C203**: there is one displacement per frame of the truth, that of the last prediction for it; a frame without prediction is an error. -/
theorem ades_spec {truth predictions : List (String × List (ℝ × ℝ))} {out : List ℝ} (h : ades truth predictions = some out) :
    List.Forall₂ (fun g a => ∃ p, (predictions.reverse.find? fun q => q.1 = g.1) = some (g.1, p) ∧
      averageDistance p g.2 (List.replicate g.2.length true) = some a) truth out := by
  refine (mapM_forall₂ h).imp ?_
  intro g a hga
  simp only [Option.bind_eq_bind, Option.bind_eq_some_iff] at hga
  obtain ⟨p, hp, ha⟩ := hga
  rw [dict_spec] at hp
  obtain ⟨q, hq, rfl⟩ := Option.map_eq_some_iff.1 hp
  have hk : q.1 = g.1 := by simpa using List.find?_some hq
  exact ⟨q.2, by rw [hq, ← hk], ha⟩

theorem ades_missing {truth predictions : List (String × List (ℝ × ℝ))} {g : String × List (ℝ × ℝ)} (hg : g ∈ truth)
    (h : ∀ p ∈ predictions, p.1 ≠ g.1) : ades truth predictions = none := by
  cases ha : ades truth predictions with
  | none => rfl
  | some out =>
    have hs := ades_spec ha
    obtain ⟨i, hi, e⟩ := List.getElem_of_mem hg
    have := (List.forall₂_iff_get.1 hs).2 i hi (by rw [← hs.length_eq]; exact hi)
    simp only [List.get_eq_getElem, e] at this
    obtain ⟨p, hp, _⟩ := this
    exact absurd rfl (h (g.1, p) (by simpa using List.mem_of_find?_eq_some hp))

/-- **C203, what holds**: for the frame that was read last, the initial speed is that at the last of its past steps. -/
theorem initialSpeeds_partial (f : Frame) (x y : ℝ) (hx : f.velX.getLast? = some x) (hy : f.velY.getLast? = some y) :
    initialSpeeds f [f] = some [Real.sqrt (x ^ 2 + y ^ 2)] := by
  simp [initialSpeeds, hx, hy]

/-- **C203 is violated**: with a list of frames, all get the speed of the frame that was read last. -/
theorem initialSpeeds_violated (data : Frame) (a : Frame) (list : List Frame) (out : List ℝ) (h : initialSpeeds data (a :: list) = some out) :
    ∀ s ∈ out, ∀ t ∈ out, s = t := by
  have hf := mapM_forall₂ h
  have key : ∀ s ∈ out, (do
      let x ← data.velX.getLast?
      let y ← data.velY.getLast?
      pure (Real.sqrt (x ^ 2 + y ^ 2)) : Option ℝ) = some s := by
    intro s hs
    obtain ⟨i, hi, e⟩ := List.getElem_of_mem hs
    have := (List.forall₂_iff_get.1 hf).2 i (by rw [hf.length_eq]; exact hi) hi
    simp only [List.get_eq_getElem, e] at this
    exact this
  intro s hs t ht
  have := (key s hs).symm.trans (key t ht)
  exact Option.some.inj this

/-- One frame stands and one moves: both get the speed of the one that was read last. -/
example : ∃ (standing moving : Frame), standing.velX.getLast? = some 0 ∧ standing.velY.getLast? = some 0 ∧
    initialSpeeds moving [standing, moving] = some [5, 5] := by
  refine ⟨⟨[1], [0], [0]⟩, ⟨[1], [3], [4]⟩, rfl, rfl, ?_⟩
  have : Real.sqrt ((3 : ℝ) ^ 2 + 4 ^ 2) = 5 := by
    rw [show (3 : ℝ) ^ 2 + 4 ^ 2 = 5 ^ 2 by norm_num, Real.sqrt_sq (by norm_num)]
  simp [initialSpeeds, this]

/-- **C203**: the rated frame is the first whose first trajectory has a score. -/
theorem rated_spec (frames : List Frame) (f : Frame) : rated frames = some f ↔
    ∃ a b, frames = a ++ f :: b ∧ (∃ s r, f.scores = s :: r ∧ s ≠ -1) ∧ ∀ g ∈ a, ∀ s r, g.scores = s :: r → s = -1 := by
  unfold rated
  rw [List.find?_eq_some_iff_append]
  constructor
  · rintro ⟨h1, a, b, h2, h3⟩
    refine ⟨a, b, h2, ?_, ?_⟩
    · cases hs : f.scores with
      | nil => rw [hs] at h1; simp at h1
      | cons s r => rw [hs] at h1; exact ⟨s, r, rfl, by simpa using h1⟩
    · intro g hg s r hs
      have := h3 g hg
      rw [hs] at this
      simpa using this
  · rintro ⟨a, b, h1, ⟨s, r, h2, h3⟩, h4⟩
    refine ⟨by rw [h2]; simpa using h3, a, b, h1, ?_⟩
    intro g hg
    cases hs : g.scores with
    | nil => simp
    | cons s r => simp [h4 g hg s r hs]

end Verif.E2ETutorial
