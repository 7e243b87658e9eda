import Verif.Props.Breakdown

/-!
Property C224: the name of the breakdown an object is evaluated in describes the object.
-/

namespace Verif.Breakdown

/-- The documented name of an object type (label.proto:63-69). -/
def docType : Nat → String
  | 1 => "TYPE_VEHICLE"
  | 2 => "TYPE_PEDESTRIAN"
  | 3 => "TYPE_SIGN"
  | 4 => "TYPE_CYCLIST"
  | _ => ""

open Classical in
/-- The documented band of the distance. -/
noncomputable def rangeBand (o : Obj) : String :=
  if distSq o < 30 ^ 2 then "[0, 30)" else if distSq o < 50 ^ 2 then "[30, 50)" else "[50, +inf)"

open Classical in
/-- The documented class of the size. -/
noncomputable def sizeBand (o : Obj) : String :=
  if o.length < 7 ∧ o.width < 7 ∧ o.height < 7 then "small" else "large"

open Classical in
/-- The documented class of the speed. -/
noncomputable def speedBand (o : Obj) : String :=
  if speedSq o < 0.2 ^ 2 then "STATIONARY" else if speedSq o < 1 ^ 2 then "SLOW" else if speedSq o < 3 ^ 2 then "MEDIUM"
  else if speedSq o < 10 ^ 2 then "FAST" else "VERY_FAST"

/-- The name in a breakdown of a camera. -/
def cameraBand : Nat → String
  | 1 => "FRONT"
  | 2 => "FRONT-LEFT"
  | 3 => "FRONT-RIGHT"
  | 4 => "SIDE-LEFT"
  | 5 => "SIDE-RIGHT"
  | _ => ""

/-- The name of a camera in a label (dataset.proto:50-63). -/
def cameraLabel : Nat → String
  | 1 => "FRONT"
  | 2 => "FRONT_LEFT"
  | 3 => "FRONT_RIGHT"
  | 4 => "SIDE_LEFT"
  | 5 => "SIDE_RIGHT"
  | _ => ""

/-- The object is evaluated in a breakdown of the generator that has this name. -/
def Named (id : Nat) (o : Obj) (name : String) : Prop :=
  ∃ (g : Gen Obj) (s : ℕ), create id = some g ∧ g.shard o = some (s : ℤ) ∧ s < g.numShards ∧ shardName id s = some name

/-- The breakdowns of the generator whose matching the object takes part in have exactly these names, each once. -/
def MatchedIn (id : Nat) (o : Obj) (names : List String) : Prop :=
  ∃ (g : Gen Obj) (l : List ℕ), create id = some g ∧ g.matching o = some (l.map fun s : ℕ => (s : ℤ)) ∧ l.Nodup ∧
    (∀ s ∈ l, s < g.numShards) ∧ l.map (fun s => shardName id s) = names.map some

theorem named_unique {id : Nat} {o : Obj} {a b : String} (ha : Named id o a) (hb : Named id o b) : a = b := by
  obtain ⟨g, s, h1, h2, _, h3⟩ := ha
  obtain ⟨g', s', h1', h2', _, h3'⟩ := hb
  rw [h1] at h1'
  obtain rfl := Option.some.inj h1'
  rw [h2] at h2'
  have : s = s' := by have := Option.some.inj h2'; omega
  subst this
  rw [h3] at h3'
  exact Option.some.inj h3'

/-- C224: everything is in the one breakdown. -/
theorem oneShard_named (o : Obj) : Named 1 o "ONE_SHARD" := ⟨oneShard, 0, rfl, rfl, by decide, rfl⟩

/-- C224: signs are in `SIGN`, everything else, also objects of unknown type, in `ALL_BUT_SIGN`. -/
theorem allButSign_named (o : Obj) : Named 8 o (if o.type = 3 then "SIGN" else "ALL_BUT_SIGN") := by
  by_cases h : o.type = 3
  · exact ⟨allButSign, 1, rfl, by simp [allButSign, allButSignShard, h], by decide, by simp [shardName, h]⟩
  · exact ⟨allButSign, 0, rfl, by simp [allButSign, allButSignShard, h], by decide, by simp [shardName, h]⟩

/-- C224: the breakdown by type. -/
theorem objectType_named (o : Obj) (h : Known o) : Named 2 o ("OBJECT_TYPE_" ++ docType o.type) := by
  obtain ⟨h1, h2⟩ := h
  refine ⟨objectType, o.type - 1, rfl, ?_, ?_, ?_⟩
  · simp only [objectType, objectTypeShard, Option.some.injEq]; omega
  · simp only [objectType, typeMax]; omega
  · generalize o.type = t at h1 h2
    interval_cases t <;> decide +kernel

theorem perType_named {id k : Nat} {names : List String} {pre : String} {t j : Nat} {n : String} (ht1 : 1 ≤ t)
    (ht4 : t ≤ 4) (hj : j < k) (hn : names[j]? = some n) (hpre : generatorName id ++ "_" = pre) :
    perTypeName id k names (k * (t - 1) + j) = some (pre ++ docType t ++ "_" ++ n) := by
  have hk : 0 < k := by omega
  have hd : (k * (t - 1) + j) / k = t - 1 := by
    rw [Nat.mul_add_div hk, Nat.div_eq_of_lt hj, Nat.add_zero]
  have hm : (k * (t - 1) + j) % k = j := by rw [Nat.mul_add_mod, Nat.mod_eq_of_lt hj]
  have he : t - 1 + 1 = t := by omega
  have hty : typeName t = docType t := by interval_cases t <;> rfl
  unfold perTypeName
  simp only [hd, hm, he, typeMax, ht4, if_true, hn, Option.map_some, hty, hpre]

theorem classOf_two {a b v : ℝ} (hab : a ≤ b) : classOf [a, b] v = if v < a then 0 else if v < b then 1 else 2 := by
  unfold classOf
  split_ifs with h1 h2
  · have : ¬ b ≤ v := by linarith [not_lt.mpr hab]
    simp [not_le.mpr h1, this]
  · simp [not_lt.mp h1, not_le.mpr h2]
  · simp [not_lt.mp h1, not_lt.mp h2]

theorem offset_cast {k t j : Nat} (h : 1 ≤ t) : (k : ℤ) * ((t : ℤ) - 1) + (j : ℤ) = ((k * (t - 1) + j : ℕ) : ℤ) := by
  push_cast [Nat.cast_sub h]
  ring

/-- C224: the breakdown by distance. -/
theorem range_named (o : Obj) (h : Known o) : Named 3 o ("RANGE_" ++ docType o.type ++ "_" ++ rangeBand o) := by
  have hc : classOf [30 ^ 2, 50 ^ 2] (distSq o) < 3 := by
    have := classOf_le [30 ^ 2, 50 ^ 2] (distSq o)
    simp only [List.length_cons, List.length_nil] at this
    omega
  refine ⟨range, 3 * (o.type - 1) + classOf [30 ^ 2, 50 ^ 2] (distSq o), rfl, ?_, ?_, ?_⟩
  · have := offset_cast (k := 3) (j := classOf [30 ^ 2, 50 ^ 2] (distSq o)) h.1
    simp only [Nat.cast_ofNat] at this
    exact (rangeShard_known o h).trans (congrArg some this)
  · have := h.2
    have := h.1
    simp only [range, typeMax]
    omega
  · refine perType_named h.1 h.2 hc ?_ (by decide +kernel)
    rw [classOf_two (by norm_num)]
    unfold rangeBand
    split_ifs <;> rfl

/-- C224: the breakdown by size. -/
theorem size_named (o : Obj) (h : Known o) : Named 9 o ("SIZE_" ++ docType o.type ++ "_" ++ sizeBand o) := by
  have hc : classOf [7] (max (max o.length o.width) o.height) < 2 := by
    have := classOf_le [7] (max (max o.length o.width) o.height)
    simp only [List.length_cons, List.length_nil] at this
    omega
  refine ⟨size, 2 * (o.type - 1) + classOf [7] (max (max o.length o.width) o.height), rfl, ?_, ?_, ?_⟩
  · have := offset_cast (k := 2) (j := classOf [7] (max (max o.length o.width) o.height)) h.1
    simp only [Nat.cast_ofNat] at this
    exact (sizeShard_known o h).trans (congrArg some this)
  · have := h.2
    have := h.1
    simp only [size, typeMax]
    omega
  · refine perType_named h.1 h.2 hc ?_ (by decide +kernel)
    unfold sizeBand
    split_ifs with hs
    · have : ¬ (7 : ℝ) ≤ max (max o.length o.width) o.height := by
        rw [not_le, max_lt_iff, max_lt_iff]
        exact ⟨⟨hs.1, hs.2.1⟩, hs.2.2⟩
      have : classOf [7] (max (max o.length o.width) o.height) = 0 := by
        unfold classOf; rw [List.countP_singleton]; simp [this]
      rw [this]; rfl
    · have : (7 : ℝ) ≤ max (max o.length o.width) o.height := by
        rw [← not_lt, max_lt_iff, max_lt_iff]
        exact fun hx => hs ⟨hx.1.1, hx.1.2, hx.2⟩
      have : classOf [7] (max (max o.length o.width) o.height) = 1 := by
        unfold classOf; rw [List.countP_singleton]; simp only [this, decide_true, if_true]
      rw [this]; rfl

/-- C224: the breakdown by speed. -/
theorem velocity_named (o : Obj) (h : Known o) : Named 7 o ("VELOCITY_" ++ docType o.type ++ "_" ++ speedBand o) := by
  have hc : classOf [0.2 ^ 2, 1 ^ 2, 3 ^ 2, 10 ^ 2] (speedSq o) < 5 := by
    have := classOf_le [0.2 ^ 2, 1 ^ 2, 3 ^ 2, 10 ^ 2] (speedSq o)
    simp only [List.length_cons, List.length_nil] at this
    omega
  refine ⟨velocity, 5 * (o.type - 1) + classOf [0.2 ^ 2, 1 ^ 2, 3 ^ 2, 10 ^ 2] (speedSq o), rfl, ?_, ?_, ?_⟩
  · have := offset_cast (k := 5) (j := classOf [0.2 ^ 2, 1 ^ 2, 3 ^ 2, 10 ^ 2] (speedSq o)) h.1
    simp only [Nat.cast_ofNat] at this
    exact (velocityShard_known o h).trans (congrArg some this)
  · have := h.2
    have := h.1
    simp only [velocity, typeMax]
    omega
  · refine perType_named h.1 h.2 hc ?_ (by decide +kernel)
    unfold speedBand classOf
    generalize speedSq o = v
    split_ifs with a b c d
    · have b1 : ¬ (1 : ℝ) ^ 2 ≤ v := by intro; linarith
      have b2 : ¬ (3 : ℝ) ^ 2 ≤ v := by intro; linarith
      have b3 : ¬ (10 : ℝ) ^ 2 ≤ v := by intro; linarith
      simp only [List.countP_cons, List.countP_nil, not_le.mpr a, b1, b2, b3, decide_false]
      rfl
    · have b2 : ¬ (3 : ℝ) ^ 2 ≤ v := by intro; linarith
      have b3 : ¬ (10 : ℝ) ^ 2 ≤ v := by intro; linarith
      simp only [List.countP_cons, List.countP_nil, not_lt.mp a, not_le.mpr b, b2, b3, decide_false, decide_true]
      rfl
    · have b3 : ¬ (10 : ℝ) ^ 2 ≤ v := by intro; linarith
      simp only [List.countP_cons, List.countP_nil, not_lt.mp a, not_lt.mp b, not_le.mpr c, b3, decide_false,
        decide_true]
      rfl
    · simp only [List.countP_cons, List.countP_nil, not_lt.mp a, not_lt.mp b, not_lt.mp c, not_le.mpr d, decide_false,
        decide_true]
      rfl
    · simp only [List.countP_cons, List.countP_nil, not_lt.mp a, not_lt.mp b, not_lt.mp c, not_lt.mp d, decide_true]
      rfl

/-! ### The breakdown by camera -/

theorem camera_offset_named (o : Obj) (h : Known o) {c : Nat} (hc : 1 ≤ c ∧ c ≤ 5) :
    ∃ s : ℕ, (5 * ((o.type : ℤ) - 1) + ((c : ℤ) - 1)) = s ∧ s < 20 ∧
      shardName 10 s = some ("CAMERA_" ++ docType o.type ++ "_" ++ cameraBand c) := by
  have h1 := h.1
  have h2 := h.2
  refine ⟨5 * (o.type - 1) + (c - 1), by omega, by omega, ?_⟩
  refine perType_named h.1 h.2 (by omega) ?_ (by decide +kernel)
  obtain ⟨a, b⟩ := hc
  interval_cases c <;> rfl

/-- C224: a label of a camera image is in the breakdown of its camera. -/
theorem camera_named_2d (o : Obj) (h : Known o) {c : Nat} (hc : 1 ≤ c ∧ c ≤ 5) (ho : o.camera = some c) :
    Named 10 o ("CAMERA_" ++ docType o.type ++ "_" ++ cameraBand c) := by
  obtain ⟨s, hs, hlt, hn⟩ := camera_offset_named o h hc
  have h0 : o.type ≠ 0 := by have := h.1; omega
  refine ⟨camera, s, rfl, ?_, hlt, hn⟩
  simp only [camera, cameraShard, h0, if_false, ho, cameraOffset_some hc, Option.map_some, hs]

/-- C224: a laser label is in the breakdown of its most visible camera. -/
theorem camera_named_visible (o : Obj) (h : Known o) {c : Nat} (hc : 1 ≤ c ∧ c ≤ 5) (ho : o.camera = none)
    (hv : o.mostVisible = some (cameraLabel c)) :
    Named 10 o ("CAMERA_" ++ docType o.type ++ "_" ++ cameraBand c) := by
  obtain ⟨s, hs, hlt, hn⟩ := camera_offset_named o h hc
  have h0 : o.type ≠ 0 := by have := h.1; omega
  have hp : parseCamera (cameraLabel c) = some c := by
    obtain ⟨a, b⟩ := hc
    interval_cases c <;> decide +kernel
  refine ⟨camera, s, rfl, ?_, hlt, hn⟩
  simp only [camera, cameraShard, h0, if_false, ho, hv, hp, cameraOffset_some hc, Option.map_some, hs]

/-- The bearing of the optical axis of a camera, in degrees to the left. -/
noncomputable def axis : Nat → ℝ
  | 2 => 45
  | 3 => -45
  | 4 => 90
  | 5 => -90
  | _ => 0

/-- The object lies in the direction `b` degrees to the left of the vehicle. -/
def AtBearing (o : Obj) (b : ℝ) : Prop :=
  -180 < b ∧ b ≤ 180 ∧ ∃ r > 0, o.cx = r * Real.cos (b * (Real.pi / 180)) ∧ o.cy = r * Real.sin (b * (Real.pi / 180))

theorem degrees_bearing {o : Obj} {b : ℝ} (h : AtBearing o b) : degrees o = b := by
  obtain ⟨h1, h2, r, hr, hx, hy⟩ := h
  have hpi := Real.pi_pos
  have hm : b * (Real.pi / 180) ∈ Set.Ioc (-Real.pi) Real.pi := by
    constructor
    · have := mul_lt_mul_of_pos_right h1 (show 0 < Real.pi / 180 by positivity)
      linarith
    · have := mul_le_mul_of_nonneg_right h2 (show 0 ≤ Real.pi / 180 by positivity)
      linarith
  have he : (⟨o.cx, o.cy⟩ : ℂ) = (r : ℂ) * (Complex.cos ((b * (Real.pi / 180) : ℝ) : ℂ) +
      Complex.sin ((b * (Real.pi / 180) : ℝ) : ℂ) * Complex.I) := by
    apply Complex.ext
    · rw [Complex.re_ofReal_mul, ← Complex.ofReal_cos, ← Complex.ofReal_sin]
      simp only [Complex.add_re, Complex.ofReal_re, Complex.mul_re, Complex.I_re, Complex.I_im, Complex.ofReal_im]
      rw [hx]; ring
    · rw [Complex.im_ofReal_mul, ← Complex.ofReal_cos, ← Complex.ofReal_sin]
      simp only [Complex.add_im, Complex.ofReal_im, Complex.mul_im, Complex.I_re, Complex.I_im, Complex.ofReal_re]
      rw [hy]; ring
  unfold degrees
  rw [he, Complex.arg_mul_cos_add_sin_mul_I hr hm]
  field_simp

theorem bearing_exists (o : Obj) (h : o.cx ≠ 0 ∨ o.cy ≠ 0) : ∃ b, AtBearing o b := by
  have hpi := Real.pi_pos
  have hz : (⟨o.cx, o.cy⟩ : ℂ) ≠ 0 := by
    intro hx
    rw [Complex.ext_iff] at hx
    simp only [Complex.zero_re, Complex.zero_im] at hx
    rcases h with h | h
    · exact h hx.1
    · exact h hx.2
  refine ⟨degrees o, ?_, ?_, ‖(⟨o.cx, o.cy⟩ : ℂ)‖, norm_pos_iff.mpr hz, ?_, ?_⟩
  · have := Complex.neg_pi_lt_arg ⟨o.cx, o.cy⟩
    unfold degrees
    have h2 := mul_lt_mul_of_pos_right this (show 0 < 180 / Real.pi by positivity)
    have h3 : -Real.pi * (180 / Real.pi) = -180 := by field_simp
    linarith
  · have := Complex.arg_le_pi ⟨o.cx, o.cy⟩
    unfold degrees
    have h2 := mul_le_mul_of_nonneg_right this (show 0 ≤ 180 / Real.pi by positivity)
    have h3 : Real.pi * (180 / Real.pi) = 180 := by field_simp
    linarith
  all_goals
    have he : degrees o * (Real.pi / 180) = Complex.arg ⟨o.cx, o.cy⟩ := by unfold degrees; field_simp
    rw [he]
  · rw [Complex.norm_mul_cos_arg]
  · rw [Complex.norm_mul_sin_arg]

/-- C224: the cameras that are taken to see an object are those whose axis is less than 25.2 degrees away. -/
theorem camerasByFov_iff {o : Obj} {b : ℝ} (h : AtBearing o b) (c : Nat) :
    c ∈ camerasByFov o ↔ (1 ≤ c ∧ c ≤ 5) ∧ |b - axis c| < 25.2 := by
  have key : ∀ (P : Prop) [Decidable P] (n : Nat), c ∈ (if P then [n] else []) ↔ P ∧ c = n := by
    intro P _ n
    split_ifs with hp <;> simp [hp]
  unfold camerasByFov
  simp only [degrees_bearing h, List.mem_append, key]
  constructor
  · rintro ((((⟨hx, rfl⟩ | ⟨hx, rfl⟩) | ⟨hx, rfl⟩) | ⟨hx, rfl⟩) | ⟨hx, rfl⟩) <;>
      refine ⟨by omega, ?_⟩ <;> rw [abs_lt] <;> simp only [axis] <;> constructor <;> linarith [hx.1, hx.2]
  · rintro ⟨⟨h1, h2⟩, hx⟩
    rw [abs_lt] at hx
    interval_cases c <;> simp only [axis] at hx
    · exact Or.inl (Or.inl (Or.inl (Or.inl ⟨⟨by linarith [hx.1], by linarith [hx.2]⟩, rfl⟩)))
    · exact Or.inl (Or.inl (Or.inl (Or.inr ⟨⟨by linarith [hx.1], by linarith [hx.2]⟩, rfl⟩)))
    · exact Or.inl (Or.inl (Or.inr ⟨⟨by linarith [hx.1], by linarith [hx.2]⟩, rfl⟩))
    · exact Or.inl (Or.inr ⟨⟨by linarith [hx.1], by linarith [hx.2]⟩, rfl⟩)
    · exact Or.inr ⟨⟨by linarith [hx.1], by linarith [hx.2]⟩, rfl⟩

/-- C224: behind the vehicle no camera sees an object; everywhere else one or two do. -/
theorem camerasByFov_nil_iff {o : Obj} {b : ℝ} (h : AtBearing o b) : camerasByFov o = [] ↔ 115.2 ≤ |b| := by
  rw [List.eq_nil_iff_forall_not_mem]
  constructor
  · intro hn
    by_contra hlt
    rw [not_le, abs_lt] at hlt
    have hno : ∀ c, 1 ≤ c ∧ c ≤ 5 → ¬ |b - axis c| < 25.2 := fun c hc hx => hn c ((camerasByFov_iff h c).mpr ⟨hc, hx⟩)
    have h1 := hno 1 (by omega)
    have h2 := hno 2 (by omega)
    have h3 := hno 3 (by omega)
    have h4 := hno 4 (by omega)
    have h5 := hno 5 (by omega)
    simp only [axis, abs_lt, not_and, not_lt] at h1 h2 h3 h4 h5
    rcases lt_or_ge b 20 with a | a
    · rcases lt_or_ge b (-20) with a' | a'
      · rcases lt_or_ge b (-65) with a'' | a''
        · have := h5 (by linarith); linarith
        · have := h3 (by linarith); linarith
      · have := h1 (by linarith); linarith
    · rcases lt_or_ge b 65 with a' | a'
      · have := h2 (by linarith); linarith
      · have := h4 (by linarith); linarith
  · intro hb c hc
    obtain ⟨⟨h1, h2⟩, hx⟩ := (camerasByFov_iff h c).mp hc
    rw [abs_lt] at hx
    rcases le_abs.mp hb with hb | hb <;> interval_cases c <;> simp only [axis] at hx <;> linarith [hx.1, hx.2]

/-- C224: a laser label without a most visible camera is in the breakdown of a camera that is taken to see it, and in
none if there is no such camera. -/
theorem camera_named_fov (o : Obj) (h : Known o) {b : ℝ} (hb : AtBearing o b) (ho : o.camera = none)
    (hv : o.mostVisible = none) :
    (|b| < 115.2 → ∃ c, (1 ≤ c ∧ c ≤ 5) ∧ |b - axis c| < 25.2 ∧
      (∀ c', 1 ≤ c' → c' < c → ¬ |b - axis c'| < 25.2) ∧
      Named 10 o ("CAMERA_" ++ docType o.type ++ "_" ++ cameraBand c)) ∧
    (115.2 ≤ |b| → camera.shard o = some (-1)) := by
  have h0 : o.type ≠ 0 := by have := h.1; omega
  constructor
  · intro hlt
    cases hl : camerasByFov o with
    | nil => exact absurd ((camerasByFov_nil_iff hb).mp hl) (not_le.mpr hlt)
    | cons c rest =>
      have hm : c ∈ camerasByFov o := by rw [hl]; simp
      obtain ⟨hc, hx⟩ := (camerasByFov_iff hb c).mp hm
      obtain ⟨s, hs, hs2, hn⟩ := camera_offset_named o h hc
      refine ⟨c, hc, hx, ?_, camera, s, rfl, ?_, hs2, hn⟩
      · intro c' h1 h2 hx'
        have hm' : c' ∈ camerasByFov o := (camerasByFov_iff hb c').mpr ⟨⟨h1, by omega⟩, hx'⟩
        have hsort : (camerasByFov o).Pairwise (· < ·) := by
          unfold camerasByFov
          simp only
          split_ifs <;> simp
        rw [hl] at hm' hsort
        rcases List.mem_cons.mp hm' with rfl | hm'
        · omega
        · have := (List.pairwise_cons.mp hsort).1 c' hm'
          omega
      · simp only [camera, cameraShard, h0, if_false, ho, hv, hl, cameraOffset_some hc, Option.map_some, hs]
  · intro hge
    have := (camerasByFov_nil_iff hb).mpr hge
    simp only [camera, cameraShard, h0, if_false, ho, hv, this]

/-! ### What an object is matched in -/

/-- C224: in the breakdowns that are not of ground truths alone an object is matched where it is evaluated. -/
theorem matchedIn_own {id : Nat} {o : Obj} {name : String} (hid : id ∈ [1, 2, 3, 8, 9]) (h : Named id o name) :
    MatchedIn id o [name] := by
  obtain ⟨g, s, hg, hs, hlt, hn⟩ := h
  refine ⟨g, [s], hg, ?_, by simp, by simpa using hlt, by simp [hn]⟩
  simp only [List.mem_cons, List.not_mem_nil, or_false] at hid
  rcases hid with rfl | rfl | rfl | rfl | rfl <;> simp only [create, Option.some.injEq] at hg <;> subst hg <;>
    simp only [oneShard, objectType, range, allButSign, size] at hs ⊢ <;> simp [single, hs]

/-- C224: by speed an object is matched in all breakdowns of its type. -/
theorem velocity_matchedIn (o : Obj) (h : Known o) :
    MatchedIn 7 o (["STATIONARY", "SLOW", "MEDIUM", "FAST", "VERY_FAST"].map
      fun n => "VELOCITY_" ++ docType o.type ++ "_" ++ n) := by
  have h1 := h.1
  have h2 := h.2
  have h0 : o.type ≠ 0 := by omega
  refine ⟨velocity, (List.range 5).map fun i => 5 * (o.type - 1) + i, rfl, ?_, ?_, ?_, ?_⟩
  · simp only [velocity, velocityMatching, h0, if_false, List.map_map, Option.some.injEq]
    apply List.map_congr_left
    intro i _
    simp only [Function.comp]
    omega
  · rw [List.nodup_map_iff (fun a b hab => by simpa using hab)]
    exact List.nodup_range
  · intro s hs
    simp only [List.mem_map, List.mem_range] at hs
    obtain ⟨i, hi, rfl⟩ := hs
    simp only [velocity, typeMax]
    omega
  · rw [List.map_map]
    have key : ∀ (j : Nat) (n : String), ["STATIONARY", "SLOW", "MEDIUM", "FAST", "VERY_FAST"][j]? = some n → j < 5 →
        shardName 7 (5 * (o.type - 1) + j) = some ("VELOCITY_" ++ docType o.type ++ "_" ++ n) :=
      fun j n hn hj => perType_named h1 h2 hj hn (by decide +kernel)
    have k0 := key 0 _ rfl (by omega)
    have k1 := key 1 _ rfl (by omega)
    have k2 := key 2 _ rfl (by omega)
    have k3 := key 3 _ rfl (by omega)
    have k4 := key 4 _ rfl (by omega)
    simp only [List.range_succ, List.range_zero, List.map_append, List.map_cons, List.map_nil, List.nil_append,
      List.cons_append, Function.comp, k0, k1, k2, k3, k4]

/-- C224: by camera a laser label is matched in the breakdowns of all cameras that are taken to see it. -/
theorem camera_matchedIn (o : Obj) (h : Known o) (ho : o.camera = none) :
    MatchedIn 10 o ((camerasByFov o).map fun c => "CAMERA_" ++ docType o.type ++ "_" ++ cameraBand c) := by
  have h1 := h.1
  have h2 := h.2
  have h0 : o.type ≠ 0 := by omega
  refine ⟨camera, (camerasByFov o).map fun c => 5 * (o.type - 1) + (c - 1), rfl, ?_, ?_, ?_, ?_⟩
  · simp only [camera, cameraMatching, h0, if_false, ho]
    rw [mapM_cameraOffset _ _ fun c hc => mem_camerasByFov hc, List.map_map]
    congr 1
    apply List.map_congr_left
    intro c hc
    have := mem_camerasByFov hc
    simp only [Function.comp]
    omega
  · refine List.Nodup.map_on ?_ (camerasByFov_nodup o)
    intro a ha b hb hab
    have := mem_camerasByFov ha
    have := mem_camerasByFov hb
    omega
  · intro s hs
    simp only [List.mem_map] at hs
    obtain ⟨c, hc, rfl⟩ := hs
    have := mem_camerasByFov hc
    simp only [camera, typeMax]
    omega
  · rw [List.map_map, List.map_map]
    apply List.map_congr_left
    intro c hc
    have hc5 := mem_camerasByFov hc
    simp only [Function.comp]
    obtain ⟨s, hs, _, hn⟩ := camera_offset_named o h hc5
    have : 5 * (o.type - 1) + (c - 1) = s := by omega
    rw [this, hn]

/-- C224: objects of unknown type are in no breakdown but the two that have room for them. -/
theorem unknown_named {id : Nat} {o : Obj} (ho : o.type = 0) (hid : id ∈ [2, 3, 7, 9, 10]) :
    ∃ g, create id = some g ∧ g.shard o = some (-1) := by
  simp only [List.mem_cons, List.not_mem_nil, or_false] at hid
  rcases hid with rfl | rfl | rfl | rfl | rfl
  · exact ⟨_, rfl, by simp [objectType, objectTypeShard, ho]⟩
  · exact ⟨_, rfl, by simp [range, rangeShard, ho]⟩
  · exact ⟨_, rfl, by simp [velocity, velocityShard, ho]⟩
  · exact ⟨_, rfl, by simp [size, sizeShard, ho]⟩
  · exact ⟨_, rfl, by simp [camera, cameraShard, ho]⟩

/-- C224: a pedestrian 40 metres to the left that runs. -/
theorem named_example : let o : Obj := ⟨2, 0, 40, 0, 1, 1, 2, some (3, 4), none, none⟩
    Named 3 o "RANGE_TYPE_PEDESTRIAN_[30, 50)" ∧ Named 7 o "VELOCITY_TYPE_PEDESTRIAN_FAST" ∧
      Named 8 o "ALL_BUT_SIGN" := by
  intro o
  have hk : Known o := ⟨by decide, by decide⟩
  refine ⟨?_, ?_, ?_⟩
  · have := range_named o hk
    have hb : rangeBand o = "[30, 50)" := by
      unfold rangeBand distSq
      simp only [o]
      norm_num
    rw [hb] at this
    exact this
  · have := velocity_named o hk
    have hb : speedBand o = "FAST" := by
      unfold speedBand speedSq
      simp only [o]
      norm_num
    rw [hb] at this
    exact this
  · have := allButSign_named o
    simpa [o] using this

end Verif.Breakdown
