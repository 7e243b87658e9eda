import Verif.Lemmas.MotionPipeline

/-!
Properties C24, C25, C26, C27, C28 and C29: the motion metrics.
-/

namespace Verif.Motion

/-! ### C28: minima -/

/-- C28: the accumulated error is attained by one of the considered predictions and none of them has a smaller one; if
none can be measured nothing is accumulated.  The bound is the initial value of the loop. -/
theorem minDisplacement_spec {c : Cfg} {m : Tracks} (h : Ready c m) {mm : Multi}
    (hm : ∀ j ∈ mm, ∀ t ∈ j.trajs, TrajReady c m t) (final : Bool) {i : ℕ} (hi : (i : ℤ) < predictionSteps c)
    (hmax : ∀ j ∈ mm, ∀ v, jointError c m final i j = some v → v < dblMax) :
    ((∀ j ∈ considered c.maxPred mm, jointError c m final i j = none) ∧ minDisplacement c mm m i final = .ok ⟨0, 0⟩) ∨
    ∃ j ∈ considered c.maxPred mm, ∃ v, jointError c m final i j = some v ∧
      (∀ j' ∈ considered c.maxPred mm, ∀ w, jointError c m final i j' = some w → v ≤ w) ∧
      minDisplacement c mm m i final = .ok ⟨v, 1⟩ := by
  have hsub : ∀ j ∈ considered c.maxPred mm, j ∈ mm := by
    intro j hj
    unfold considered at hj
    split at hj
    · exact hj
    · exact List.mem_of_mem_take hj
  rw [minDisplacement_ok h hm final hi]
  obtain ⟨h1, h2, h3⟩ := foldl_min_spec ((considered c.maxPred mm).filterMap (jointError c m final i)) dblMax
  set v := ((considered c.maxPred mm).filterMap (jointError c m final i)).foldl min dblMax with hv
  by_cases hne : v = dblMax
  · left
    refine ⟨?_, by rw [if_neg (fun h => h hne)]⟩
    intro j hj
    cases he : jointError c m final i j with
    | none => rfl
    | some w =>
      have h4 := hmax j (hsub j hj) w he
      have h5 := h3 w (List.mem_filterMap.mpr ⟨j, hj, he⟩)
      rw [hne] at h5
      exact absurd h4 (not_lt.mpr h5)
  · right
    rcases h1 with h1 | h1
    · exact absurd h1 hne
    · obtain ⟨j, hj, he⟩ := List.mem_filterMap.mp h1
      refine ⟨j, hj, v, he, ?_, by rw [if_pos hne]⟩
      intro j' hj' w hw
      exact h3 w (List.mem_filterMap.mpr ⟨j', hj', hw⟩)

/-- `k'` predictions include the first `k`: without a positive limit there is none. -/
def WiderLimit (k k' : ℤ) : Prop := k' ≤ 0 ∨ 0 < k ∧ k ≤ k'

theorem considered_wider {k k' : ℤ} (h : WiderLimit k k') (mm : Multi) :
    ∃ more, considered k' mm = considered k mm ++ more := by
  unfold considered
  rcases h with h | ⟨h1, h2⟩
  · rw [if_pos h]
    split
    · exact ⟨[], by simp⟩
    · exact ⟨mm.drop k.toNat, (List.take_append_drop _ _).symm⟩
  · rw [if_neg (by omega), if_neg (by omega)]
    have : k'.toNat = k.toNat + (k'.toNat - k.toNat) := by omega
    rw [this, List.take_add]
    exact ⟨_, rfl⟩

theorem considered_sub {k : ℤ} {mm : Multi} {j : Joint} (hj : j ∈ considered k mm) : j ∈ mm := by
  unfold considered at hj
  split at hj
  · exact hj
  · exact List.mem_of_mem_take hj

/-- The specification does not read the limit on predictions. -/
theorem jointError_limit (c : Cfg) (k : ℤ) (m : Tracks) (final : Bool) (i : ℕ) :
    jointError { c with maxPred := k } m final i = jointError c m final i := rfl

/-- C28: with more predictions the minimum error is still measured and never greater. -/
theorem minDisplacement_mono {c : Cfg} {m : Tracks} (h : Ready c m) {mm : Multi}
    (hm : ∀ j ∈ mm, ∀ t ∈ j.trajs, TrajReady c m t) (final : Bool) {i : ℕ} (hi : (i : ℤ) < predictionSteps c)
    {k : ℤ} (hk : WiderLimit c.maxPred k) {v : ℝ} (hv : minDisplacement c mm m i final = .ok ⟨v, 1⟩) :
    ∃ w, minDisplacement { c with maxPred := k } mm m i final = .ok ⟨w, 1⟩ ∧ w ≤ v := by
  have h' : Ready { c with maxPred := k } m := ⟨h.predPos, h.dvd, h.le, h.hist, h.size, h.ids⟩
  have hm' : ∀ j ∈ mm, ∀ t ∈ j.trajs, TrajReady { c with maxPred := k } m t :=
    fun j hj t ht => ⟨(hm j hj t ht).xs, (hm j hj t ht).ys, (hm j hj t ht).known⟩
  rw [minDisplacement_ok h hm final hi] at hv
  rw [minDisplacement_ok h' hm' final hi, jointError_limit]
  obtain ⟨more, hmore⟩ := considered_wider hk mm
  simp only [hmore, List.filterMap_append, List.foldl_append]
  split at hv
  · rename_i hne
    simp only [Except.ok.injEq, Acc.mk.injEq, and_true] at hv
    rw [hv] at hne ⊢
    have hv' : v < dblMax := by
      have := (foldl_min_spec ((considered c.maxPred mm).filterMap (jointError c m final i)) dblMax).2.1
      rw [hv] at this
      exact lt_of_le_of_ne this hne
    have hle := (foldl_min_spec (more.filterMap (jointError c m final i)) v).2.1
    exact ⟨_, by rw [if_pos (ne_of_lt (lt_of_le_of_lt hle hv'))], hle⟩
  · simp at hv

/-- C28: the miss rate of a prediction: a hit if one of the considered predictions matches, a miss if some can be measured
but none matches, nothing otherwise. -/
theorem missRate_spec {c : Cfg} {m : Tracks} (h : Ready c m) (hsc : Scaled c) {sc : StepCfg} {i : ℕ} (hstep : sc.step = i)
    (hi : (i : ℤ) < predictionSteps c) {mm : Multi} (hm : ∀ j ∈ mm, ∀ t ∈ j.trajs, TrajReady c m t) :
    (missRate c m sc mm = .ok ⟨0, 1⟩ ↔
      ∃ j ∈ considered c.maxPred mm, matchSpec c m i sc.lat sc.lon j = some true) ∧
    (missRate c m sc mm = .ok ⟨1, 1⟩ ↔
      (∃ j ∈ considered c.maxPred mm, matchSpec c m i sc.lat sc.lon j = some false) ∧
      ∀ j ∈ considered c.maxPred mm, matchSpec c m i sc.lat sc.lon j ≠ some true) ∧
    (missRate c m sc mm = .ok ⟨0, 0⟩ ↔
      ∀ j ∈ considered c.maxPred mm, matchSpec c m i sc.lat sc.lon j = none) := by
  rw [missRate_ok h hsc hstep hi hm]
  unfold missSpec
  set f := matchSpec c m i sc.lat sc.lon
  set l := considered c.maxPred mm
  by_cases h1 : ∃ j ∈ l, f j = some true
  · have hd : (l.any fun j => f j == some true) = true := by
      obtain ⟨j, hj, he⟩ := h1
      exact List.any_eq_true.mpr ⟨j, hj, by simp [he]⟩
    rw [if_pos hd]
    refine ⟨⟨fun _ => h1, fun _ => rfl⟩, ⟨fun h => by simp at h, fun h => ?_⟩, ⟨fun h => by simp at h, fun h => ?_⟩⟩
    · obtain ⟨j, hj, he⟩ := h1
      exact absurd he (h.2 j hj)
    · obtain ⟨j, hj, he⟩ := h1
      rw [h j hj] at he
      simp at he
  · have hd : ¬ (l.any fun j => f j == some true) = true := by
      intro hq
      obtain ⟨j, hj, he⟩ := List.any_eq_true.mp hq
      exact h1 ⟨j, hj, by simpa using he⟩
    rw [if_neg hd]
    by_cases h2 : ∃ j ∈ l, f j = some false
    · have hs : (l.any fun j => (f j).isSome) = true := by
        obtain ⟨j, hj, he⟩ := h2
        exact List.any_eq_true.mpr ⟨j, hj, by simp [he]⟩
      rw [if_pos hs]
      refine ⟨⟨fun h => by simp at h, fun h => absurd h h1⟩,
        ⟨fun _ => ⟨h2, fun j hj he => h1 ⟨j, hj, he⟩⟩, fun _ => rfl⟩, ⟨fun h => by simp at h, fun h => ?_⟩⟩
      obtain ⟨j, hj, he⟩ := h2
      rw [h j hj] at he
      simp at he
    · have hnone : ∀ j ∈ l, f j = none := by
        intro j hj
        cases he : f j with
        | none => rfl
        | some b => cases b with
          | false => exact absurd ⟨j, hj, he⟩ h2
          | true => exact absurd ⟨j, hj, he⟩ h1
      have hs : ¬ (l.any fun j => (f j).isSome) = true := by
        intro hq
        obtain ⟨j, hj, he⟩ := List.any_eq_true.mp hq
        rw [hnone j hj] at he
        simp at he
      rw [if_neg hs]
      refine ⟨⟨fun h => by simp at h, fun h => absurd h h1⟩, ⟨fun h => by simp at h, fun h => absurd h.1 h2⟩,
        ⟨fun _ => hnone, fun _ => rfl⟩⟩

theorem matchSpec_limit (c : Cfg) (k : ℤ) (m : Tracks) (i : ℕ) (a b : ℝ) :
    matchSpec { c with maxPred := k } m i a b = matchSpec c m i a b := rfl

/-- C28: with more predictions a hit stays a hit, and what was measured stays measured. -/
theorem missRate_mono {c : Cfg} {m : Tracks} (h : Ready c m) (hsc : Scaled c) {sc : StepCfg} {i : ℕ} (hstep : sc.step = i)
    (hi : (i : ℤ) < predictionSteps c) {mm : Multi} (hm : ∀ j ∈ mm, ∀ t ∈ j.trajs, TrajReady c m t) {k : ℤ}
    (hk : WiderLimit c.maxPred k) {v : ℝ} (hv : missRate c m sc mm = .ok ⟨v, 1⟩) :
    ∃ w, missRate { c with maxPred := k } m sc mm = .ok ⟨w, 1⟩ ∧ w ≤ v := by
  have h' : Ready { c with maxPred := k } m := ⟨h.predPos, h.dvd, h.le, h.hist, h.size, h.ids⟩
  have hm' : ∀ j ∈ mm, ∀ t ∈ j.trajs, TrajReady { c with maxPred := k } m t :=
    fun j hj t ht => ⟨(hm j hj t ht).xs, (hm j hj t ht).ys, (hm j hj t ht).known⟩
  rw [missRate_ok h hsc hstep hi hm] at hv
  rw [missRate_ok h' ⟨hsc.speeds, hsc.lo, hsc.hi⟩ hstep hi hm', matchSpec_limit]
  obtain ⟨more, hmore⟩ := considered_wider hk mm
  simp only [hmore]
  unfold missSpec at hv ⊢
  rw [List.any_append, List.any_append]
  set f := matchSpec c m i sc.lat sc.lon
  by_cases h1 : ((considered c.maxPred mm).any fun j => f j == some true) = true
  · rw [if_pos h1] at hv
    simp only [Except.ok.injEq, Acc.mk.injEq, and_true] at hv
    rw [h1, Bool.true_or, if_pos rfl]
    exact ⟨0, rfl, hv.le⟩
  · rw [if_neg h1] at hv
    by_cases h2 : ((considered c.maxPred mm).any fun j => (f j).isSome) = true
    · rw [if_pos h2] at hv
      simp only [Except.ok.injEq, Acc.mk.injEq, and_true] at hv
      rw [← hv, h2, Bool.true_or]
      by_cases h3 : (((considered c.maxPred mm).any fun j => f j == some true) ||
          (more.any fun j => f j == some true)) = true
      · rw [if_pos h3]; exact ⟨0, rfl, zero_le_one⟩
      · rw [if_neg h3, if_pos rfl]; exact ⟨1, rfl, le_refl _⟩
    · rw [if_neg h2] at hv
      simp at hv

/-- The thresholds grow with the speed of the object at the prediction time and lie between the two scales. -/
theorem scaleFor_bounds {c : Cfg} (h : c.scaleLo ≤ c.scaleHi) (hlt : c.speedLo < c.speedHi) :
    Monotone (scaleFor c) ∧ ∀ v, c.scaleLo ≤ scaleFor c v ∧ scaleFor c v ≤ c.scaleHi := by
  refine ⟨?_, ?_⟩
  · intro a b hab
    unfold scaleFor
    have hp : 0 < c.speedHi - c.speedLo := by linarith
    have : (a - c.speedLo) / (c.speedHi - c.speedLo) ≤ (b - c.speedLo) / (c.speedHi - c.speedLo) :=
      (div_le_div_iff_of_pos_right hp).mpr (by linarith)
    have := max_le_max_left 0 (min_le_min_left 1 this)
    have := mul_le_mul_of_nonneg_left this (sub_nonneg.mpr h)
    linarith
  · intro v
    unfold scaleFor
    set a := max 0 (min 1 ((v - c.speedLo) / (c.speedHi - c.speedLo)))
    have ha0 : 0 ≤ a := le_max_left _ _
    have ha1 : a ≤ 1 := max_le zero_le_one (min_le_left _ _)
    constructor <;> nlinarith [sub_nonneg.mpr h]

/-! ### C24: accepted configurations -/

theorem validateConfig_ok {c : Cfg} (hp : 0 < c.predSps) : validateConfig c = .ok () ↔
    c.predSps ≤ c.trackSps ∧ c.predSps ∣ c.trackSps ∧ ∀ s ∈ c.steps, 0 ≤ s.step ∧ s.step ≤ predictionSteps c := by
  unfold validateConfig
  by_cases h1 : c.predSps > c.trackSps
  · simp [h1, not_le.mpr h1]
  · rw [if_neg h1, if_neg hp.ne']
    push Not at h1
    by_cases h2 : c.trackSps.tmod c.predSps ≠ 0
    · rw [if_pos h2]
      constructor
      · intro h; simp at h
      · rintro ⟨_, h, _⟩
        exact absurd (Int.dvd_iff_tmod_eq_zero.mp h) h2
    · rw [if_neg h2, if_neg (by omega)]
      push Not at h2
      have hd := Int.dvd_iff_tmod_eq_zero.mpr h2
      by_cases h3 : c.steps.any (fun s => decide (s.step > predictionSteps c ∨ s.step < 0)) = true
      · rw [if_pos h3]
        obtain ⟨s, hs, hq⟩ := List.any_eq_true.mp h3
        have hq := of_decide_eq_true hq
        constructor
        · intro h; simp at h
        · rintro ⟨_, _, h⟩
          have := h s hs
          omega
      · rw [if_neg h3]
        refine ⟨fun _ => ⟨h1, hd, ?_⟩, fun _ => rfl⟩
        intro s hs
        by_contra hq
        exact h3 (List.any_eq_true.mpr ⟨s, hs, decide_eq_true (by omega)⟩)

/-- C24, partial: with a positive prediction rate and a non-negative history, every accepted measurement step that is less
than the number of prediction steps addresses, with all the steps before it, an existing ground truth step of the future.
The full statement would need no such restriction: an accepted step may be one too large (`config_violated`). -/
theorem config_in_range_partial {c : Cfg} (hp : 0 < c.predSps) (hh : 0 ≤ c.history) (hv : validateConfig c = .ok ())
    {s : StepCfg} (hs : s ∈ c.steps) (hlt : s.step < predictionSteps c) (i : ℤ) (h0 : 0 ≤ i) (hi : i ≤ s.step) :
    0 ≤ i ∧ i < predictionSteps c ∧ c.history < toTrackStep c i ∧ toTrackStep c i < c.history + c.future + 1 := by
  obtain ⟨h1, h2, _⟩ := (validateConfig_ok hp).mp hv
  have hr : Ready c [] := ⟨hp, h2, h1, hh, by simp, by simp⟩
  have := toTrackStep_bounds hr h0 (by omega : i < predictionSteps c)
  omega

/-! ### C25 and C26: from predictions to statistics -/

/-- Side conditions that the validation does not check. -/
structure Sound (c : Cfg) (s : Scenario) (p : Preds) : Prop where
  predPos : 0 < c.predSps
  hist : 0 ≤ c.history
  maxPos : 0 < c.maxPred
  two : 2 ≤ predictionSteps c
  scaled : Scaled c
  steps : ∀ sc ∈ c.steps, sc.step < predictionSteps c
  full : FullTracks c s
  conf : ∀ mm ∈ p.multis, ∀ j ∈ mm, 0 ≤ j.conf

/-- The soft samples are the samples without some false positives. -/
def SoftOf (h s : PStats) : Prop :=
  (∃ fps : List Sample, (∀ x ∈ fps, x.tp = false) ∧ h.samples.Perm (fps ++ s.samples)) ∧ h.num = s.num ∧
    (h.samples = [] ↔ s.samples = [])

def MStats.SoftOk (s : MStats) : Prop := List.Forall₂ SoftOf s.map s.soft

theorem SoftOf.zero : SoftOf PStats.zero PStats.zero := ⟨⟨[], by simp, List.Perm.refl _⟩, rfl, Iff.rfl⟩

theorem SoftOf.accumulate {a b a' b' : PStats} (h : SoftOf a b) (h' : SoftOf a' b') :
    SoftOf (a.accumulate a') (b.accumulate b') := by
  obtain ⟨⟨f, h1, h2⟩, h3, h4⟩ := h
  obtain ⟨⟨f', h1', h2'⟩, h3', h4'⟩ := h'
  refine ⟨⟨f ++ f', ?_, ?_⟩, ?_, ?_⟩
  · intro x hx
    rcases List.mem_append.mp hx with hx | hx
    · exact h1 x hx
    · exact h1' x hx
  · refine (h2.append h2').trans ?_
    simp only [PStats.accumulate, List.append_assoc]
    refine List.Perm.append_left f ?_
    rw [← List.append_assoc, ← List.append_assoc]
    exact List.Perm.append_right _ List.perm_append_comm
  · simp only [PStats.accumulate]; omega
  · simp only [PStats.accumulate, List.append_eq_nil_iff, h4, h4']

theorem softOf_accumulateMap {a b a' b' r r' : MapStats} (h : List.Forall₂ SoftOf a b) (h' : List.Forall₂ SoftOf a' b')
    (hr : accumulateMap a a' = .ok r) (hr' : accumulateMap b b' = .ok r') : List.Forall₂ SoftOf r r' := by
  have hl := h.length_eq
  have hl' := h'.length_eq
  unfold accumulateMap at hr hr'
  by_cases h0 : a' = []
  · have h0' : b' = [] := List.length_eq_zero_iff.mp (by rw [← hl', h0]; rfl)
    rw [if_pos h0] at hr
    rw [if_pos h0'] at hr'
    cases hr; cases hr'
    exact h
  · have h0' : b' ≠ [] := fun hq => h0 (List.length_eq_zero_iff.mp (by rw [hl', hq]; rfl))
    rw [if_neg h0] at hr
    rw [if_neg h0'] at hr'
    have hz : ∀ x y : MapStats, List.Forall₂ SoftOf x y → List.Forall₂ SoftOf
        (List.zipWith PStats.accumulate x a') (List.zipWith PStats.accumulate y b') := by
      intro x y hxy
      clear hr hr' h0 h0' hl hl' h
      induction h' generalizing x y with
      | nil => simp
      | cons h1 _ ih =>
        cases hxy with
        | nil => simp
        | cons h2 h3 => exact List.Forall₂.cons (h2.accumulate h1) (ih _ _ h3)
    have hrep : List.Forall₂ SoftOf (if a = [] then List.replicate a'.length PStats.zero else a)
        (if b = [] then List.replicate b'.length PStats.zero else b) := by
      by_cases ha : a = []
      · have hb : b = [] := List.length_eq_zero_iff.mp (by rw [← hl, ha]; rfl)
        rw [if_pos ha, if_pos hb, hl']
        generalize b'.length = n
        induction n with
        | zero => exact List.Forall₂.nil
        | succ n ih => exact List.Forall₂.cons SoftOf.zero ih
      · have hb : b ≠ [] := fun hq => ha (List.length_eq_zero_iff.mp (by rw [hl, hq]; rfl))
        rw [if_neg ha, if_neg hb]
        exact h
    simp only at hr hr'
    generalize (if a = [] then List.replicate a'.length PStats.zero else a) = x at hr hrep
    generalize (if b = [] then List.replicate b'.length PStats.zero else b) = y at hr' hrep
    split at hr
    · simp at hr
    · split at hr'
      · simp at hr'
      · simp only [Except.ok.injEq] at hr hr'
        rw [← hr, ← hr']
        exact hz _ _ hrep

theorem MStats.softOk_zero : MStats.zero.SoftOk := List.Forall₂.nil

theorem MStats.softOk_accumulate {a b r : MStats} (ha : a.SoftOk) (hb : b.SoftOk) (hr : a.accumulate b = .ok r) :
    r.SoftOk := by
  unfold MStats.accumulate at hr
  cases h1 : accumulateMap a.map b.map with
  | error e => rw [h1] at hr; simp [bind, Except.bind] at hr
  | ok x =>
    cases h2 : accumulateMap a.soft b.soft with
    | error e => rw [h1, h2] at hr; simp [bind, Except.bind] at hr
    | ok y =>
      rw [h1, h2] at hr
      simp only [bind, Except.bind, pure, Except.pure, Except.ok.injEq] at hr
      rw [← hr]
      exact softOf_accumulateMap ha hb h1 h2

/-- Statistics as the pipeline produces them. -/
def Stats.Fine (s : Stats) : Prop := s.Good ∧ ∀ e ∈ s, e.2.SoftOk

theorem Stats.Fine.get {s : Stats} (h : s.Fine) (k : ObjType × ℤ) : (s.get k).SoftOk := by
  unfold Stats.get
  cases hf : s.find? fun e => e.1 == k with
  | none => exact MStats.softOk_zero
  | some e => exact h.2 e (List.mem_of_find?_eq_some hf)

theorem Stats.addTo_fine {s r : Stats} (hs : s.Fine) {k : ObjType × ℤ} {v : MStats} (hg : v.Good) (hv : v.SoftOk)
    (hr : s.addTo k v = .ok r) : r.Fine := by
  obtain ⟨r', h1, h2, _⟩ := Stats.addTo_spec hs.1 k hg
  rw [hr] at h1
  cases h1
  refine ⟨h2, ?_⟩
  unfold Stats.addTo at hr
  cases ha : (s.get k).accumulate v with
  | error e => rw [ha] at hr; simp [bind, Except.bind] at hr
  | ok x =>
    rw [ha] at hr
    simp only [bind, Except.bind, pure, Except.pure, Except.ok.injEq] at hr
    rw [← hr]
    intro e he
    rcases Stats.mem_put he with rfl | he
    · exact MStats.softOk_accumulate (hs.get k) hv ha
    · exact hs.2 e he

theorem Stats.accumulate_fine {s t r : Stats} (hs : s.Fine) (ht : t.Fine) (hr : s.accumulate t = .ok r) : r.Fine := by
  have key : ∀ (l s r : Stats), s.Fine → (∀ e ∈ l, e.2.Good ∧ e.2.SoftOk) →
      l.foldlM (fun s e => s.addTo e.1 e.2) s = .ok r → r.Fine := by
    intro l
    induction l with
    | nil => intro s r hs _ hr; simp only [List.foldlM_nil, pure, Except.pure, Except.ok.injEq] at hr; rw [← hr]; exact hs
    | cons e rest ih =>
      intro s r hs hl hr
      rw [List.foldlM_cons] at hr
      cases ha : s.addTo e.1 e.2 with
      | error x => rw [ha] at hr; simp [bind, Except.bind] at hr
      | ok s' =>
        rw [ha] at hr
        have he := hl e (by simp)
        exact ih s' r (Stats.addTo_fine hs he.1 he.2 ha) (fun x hx => hl x (List.mem_cons_of_mem _ hx)) hr
  exact key t s r hs (fun e he => ⟨ht.1.2 e he, ht.2 e he⟩) hr

theorem mapMetric_mono {a b : MapStats} (h : List.Forall₂ SoftOf a b) {v w : ℝ} (hv : mapMetric a = some v)
    (hw : mapMetric b = some w) : v ≤ w := by
  have key : ∀ (a b : MapStats), List.Forall₂ SoftOf a b → ∀ (x y : List ℝ),
      (a.filter fun q => !q.samples.isEmpty).mapM averagePrecision = some x →
      (b.filter fun q => !q.samples.isEmpty).mapM averagePrecision = some y → x.length = y.length ∧ x.sum ≤ y.sum := by
    intro a b hab
    induction hab with
    | nil => intro x y hx hy; simp at hx hy; rw [hx, hy]; simp
    | @cons p q l l' h1 _ ih =>
      intro x y hx hy
      by_cases hp : p.samples = []
      · have hq := h1.2.2.mp hp
        rw [List.filter_cons_of_neg (by simp [hp])] at hx
        rw [List.filter_cons_of_neg (by simp [hq])] at hy
        exact ih x y hx hy
      · have hq : q.samples ≠ [] := fun h => hp (h1.2.2.mpr h)
        rw [List.filter_cons_of_pos (by simp [hp]), List.mapM_cons] at hx
        rw [List.filter_cons_of_pos (by simp [hq]), List.mapM_cons] at hy
        simp only [Option.bind_eq_bind, Option.bind_eq_some_iff, Option.pure_def, Option.some.injEq] at hx hy
        obtain ⟨u, hu, x', hx', rfl⟩ := hx
        obtain ⟨u', hu', y', hy', rfl⟩ := hy
        obtain ⟨i1, i2⟩ := ih x' y' hx' hy'
        obtain ⟨⟨f, f1, f2⟩, f3, _⟩ := h1
        have := averagePrecision_remove f2 f1 f3 hu hu'
        simp only [List.length_cons, List.sum_cons]
        exact ⟨by omega, by linarith⟩
  unfold mapMetric at hv hw
  simp only [Option.bind_eq_bind, Option.bind_eq_some_iff, Option.pure_def, Option.some.injEq] at hv hw
  obtain ⟨x, hx, rfl⟩ := hv
  obtain ⟨y, hy, rfl⟩ := hw
  obtain ⟨h1, h2⟩ := key a b h x y hx hy
  rw [h1]
  split
  · exact le_refl _
  · rename_i hne
    have : (0 : ℝ) < y.length := by exact_mod_cast Nat.pos_of_ne_zero hne
    exact (div_le_div_iff_of_pos_right this).mpr h2

/-- C27: the soft mean average precision is never less than the mean average precision, and both lie in [0, 1]. -/
theorem bundle_map_bounds {s : Stats} (hs : s.Fine) {k : ObjType × ℤ} {b : Bundle} (hb : bundle (s.get k) = some b) :
    0 ≤ b.map ∧ b.map ≤ b.soft ∧ b.soft ≤ 1 := by
  unfold bundle at hb
  simp only [Option.bind_eq_bind, Option.bind_eq_some_iff, Option.pure_def, Option.some.injEq] at hb
  obtain ⟨v, hv, w, hw, rfl⟩ := hb
  have hg := hs.1.get k
  exact ⟨(mapMetric_bounds hg.1 hv).1, mapMetric_mono (hs.get k) hv hw, (mapMetric_bounds hg.2 hw).2⟩

theorem forall₂_replicate_set {R : PStats → PStats → Prop} (h0 : R PStats.zero PStats.zero) {a b : PStats} (hab : R a b)
    (n i : ℕ) : List.Forall₂ R ((List.replicate n PStats.zero).set i a) ((List.replicate n PStats.zero).set i b) := by
  induction n generalizing i with
  | zero => simp
  | succ n ih =>
    rw [List.replicate_succ]
    cases i with
    | zero =>
      refine List.Forall₂.cons hab ?_
      clear ih
      induction n with
      | zero => exact List.Forall₂.nil
      | succ n ih => exact List.Forall₂.cons h0 ih
    | succ i => exact List.Forall₂.cons h0 (ih i)

theorem softOf_labelled (l : List (ℝ × Bool)) (n : ℕ) :
    SoftOf ⟨labelled false l false, n⟩ ⟨labelled true l false, n⟩ := by
  refine ⟨labelled_soft_hard l false, rfl, ?_⟩
  cases l with
  | nil => simp [labelled]
  | cons p rest => obtain ⟨cf, b⟩ := p; simp [labelled]

theorem bucketStats_soft {c : Cfg} {m : Tracks} {sc : StepCfg} {f : Joint → Option Bool} {mm : Multi}
    (hf : ∀ j ∈ mm, isMatch c m sc j = .ok (f j)) {a b : PStats} (ha : bucketStats c m sc mm false = .ok a)
    (hb : bucketStats c m sc mm true = .ok b) : SoftOf a b := by
  unfold bucketStats at ha hb
  cases ho : sortedPredictions c mm with
  | error e => rw [ho] at ha; simp [bind, Except.bind] at ha
  | ok order =>
    have hsub : ∀ j ∈ order, j ∈ mm := by
      classical
      intro j hj
      unfold sortedPredictions at ho
      split at ho
      · simp at ho
      · simp only [Except.ok.injEq] at ho
        rw [← ho] at hj
        exact List.mem_of_mem_take ((List.perm_insertionSort _ _).subset hj)
    rw [ho] at ha hb
    simp only [bind, Except.bind] at ha hb
    rw [sampleLoop_eq false order false fun j hj => hf j (hsub j hj)] at ha
    rw [sampleLoop_eq true order false fun j hj => hf j (hsub j hj)] at hb
    simp only [pure, Except.pure, Except.ok.injEq] at ha hb
    rw [← ha, ← hb]
    exact softOf_labelled _ _

theorem mapStats_soft {c : Cfg} {m : Tracks} {sc : StepCfg} {f : Joint → Option Bool} {mm : Multi}
    (hf : ∀ j ∈ mm, isMatch c m sc j = .ok (f j)) {a b : MapStats} (ha : mapStats c m sc mm false = .ok a)
    (hb : mapStats c m sc mm true = .ok b) : List.Forall₂ SoftOf a b := by
  have hz : List.Forall₂ SoftOf (List.replicate numTypes PStats.zero) (List.replicate numTypes PStats.zero) := by
    have := forall₂_replicate_set SoftOf.zero SoftOf.zero 8 8
    rw [List.set_eq_of_length_le (by simp)] at this
    exact this
  cases mm with
  | nil => cases ha; cases hb; exact hz
  | cons j0 js =>
    unfold mapStats at ha hb
    by_cases h0 : j0.trajs.isEmpty = true
    · simp only [h0, if_true, Except.ok.injEq] at ha hb
      rw [← ha, ← hb]
      exact hz
    · simp only [h0, if_false, Bool.false_eq_true] at ha hb
      cases ht : typeLoop c m j0.trajs (.stationary, false) with
      | error e => rw [ht] at ha; simp [bind, Except.bind] at ha
      | ok r =>
        obtain ⟨ty, found⟩ := r
        rw [ht] at ha hb
        simp only [bind, Except.bind] at ha hb
        cases found
        · simp only [Bool.false_eq_true, if_false, pure, Except.pure, Except.ok.injEq] at ha hb
          rw [← ha, ← hb]
          exact hz
        · simp only [if_true] at ha hb
          cases h1 : bucketStats c m sc (j0 :: js) false with
          | error e => rw [h1] at ha; simp at ha
          | ok x =>
            cases h2 : bucketStats c m sc (j0 :: js) true with
            | error e => rw [h2] at hb; simp at hb
            | ok y =>
              rw [h1] at ha
              rw [h2] at hb
              simp only [pure, Except.pure, Except.ok.injEq] at ha hb
              rw [← ha, ← hb]
              exact forall₂_replicate_set SoftOf.zero (bucketStats_soft hf h1 h2) _ _

/-- The statistics of a prediction at a step exist. -/
theorem stepStats_ok {c : Cfg} {m : Tracks} (h : Ready c m) (hsc : Scaled c) {s : Scenario} (hfull : FullTracks c s)
    (h2 : 2 ≤ predictionSteps c) (hk : 0 < c.maxPred) {mm : Multi} (hne : mm ≠ []) (hc : ∀ j ∈ mm, 0 ≤ j.conf)
    (hm : ∀ j ∈ mm, ∀ t ∈ j.trajs, TrajReady c m t) (overlaps : Box → Box → Bool) {sc : StepCfg}
    (h0 : 0 ≤ sc.step) (hlt : sc.step < predictionSteps c) :
    ∃ v, stepStats overlaps c m s mm sc = .ok v ∧ v.Good ∧ v.SoftOk ∧ v.overlap.count = 1 := by
  obtain ⟨i, hi⟩ := Int.eq_ofNat_of_zero_le h0
  have hlt' : (i : ℤ) < predictionSteps c := by rw [← hi]; exact hlt
  obtain ⟨_, j, _, h3⟩ := hasOverlap_ok h hfull h2 hk hne hc hm overlaps hlt'
  obtain ⟨a, ha, hga⟩ := mapStats_good h hsc hi hlt' hk.le hm false
  obtain ⟨b, hb, hgb⟩ := mapStats_good h hsc hi hlt' hk.le hm true
  have hs := mapStats_soft (f := matchSpec c m i sc.lat sc.lon)
    (fun j hj => isMatch_spec h hsc hi hlt' (hm j hj)) ha hb
  rw [← hi] at h3
  have h4 := minDisplacement_ok h hm false hlt'
  have h5 := minDisplacement_ok h hm true hlt'
  have h6 := missRate_ok h hsc hi hlt' hm
  rw [← hi] at h4 h5
  unfold stepStats overlapRate
  rw [h4, h5, h6, h3, ha, hb]
  exact ⟨_, rfl, ⟨hga, hgb⟩, hs, by simp [Acc.add, Acc.zero]⟩

/-- The object type of greatest priority. -/
def IsType (types : List ObjType) (ty : ObjType) : Prop :=
  ty ∈ types ∧ ∀ t ∈ types, t.priority ≤ ty.priority

/-- The types of the objects of a joint prediction. -/
def objectTypes (m : Tracks) (l : List Traj) : List ObjType := l.filterMap fun t => (trackOf m t.id).map (·.type)

theorem objectType_ok {m : Tracks} : ∀ (l : List Traj) (ty : ObjType), (∀ t ∈ l, (trackOf m t.id).isSome) →
    objectType m l ty = .ok ((objectTypes m l).foldl (fun x y => if y.priority > x.priority then y else x) ty) := by
  intro l
  induction l with
  | nil => intro ty _; rfl
  | cons t rest ih =>
    intro ty h
    obtain ⟨tk, htk⟩ := Option.isSome_iff_exists.mp (h t (by simp))
    unfold objectType
    rw [getTrack_ok htk]
    have : objectTypes m (t :: rest) = tk.type :: objectTypes m rest := by simp [objectTypes, htk]
    rw [this, List.foldl_cons]
    exact ih _ fun t ht => h t (List.mem_cons_of_mem _ ht)

/-- C25: the type under which a prediction is counted is the one of greatest priority among its objects. -/
theorem objectType_spec {m : Tracks} {l : List Traj} (hne : l ≠ []) (h : ∀ t ∈ l, (trackOf m t.id).isSome) :
    ∃ ty, objectType m l .unset = .ok ty ∧ IsType (objectTypes m l) ty := by
  obtain ⟨q1, q2, q3⟩ := foldl_priority_spec ObjType.priority (objectTypes m l) .unset
  refine ⟨_, objectType_ok l .unset h, ?_, q3⟩
  rcases q1 with q1 | q1
  · cases l with
    | nil => exact absurd rfl hne
    | cons t rest =>
      obtain ⟨tk, htk⟩ := Option.isSome_iff_exists.mp (h t (by simp))
      have hmem : tk.type ∈ objectTypes m (t :: rest) := by simp [objectTypes, htk]
      have := q3 _ hmem
      rw [q1] at this
      have hx : tk.type = .unset := by
        revert this
        cases tk.type <;> simp [ObjType.priority]
      rw [q1, ← hx]
      exact hmem
  · exact q1

/-- What an evaluation adds to the statistics. -/
noncomputable def denOf : Res MStats → Den
  | .ok v => v.den
  | .error _ => 0

/-- The object type of a prediction, by its first joint prediction. -/
def typeOf (m : Tracks) (mm : Multi) : ObjType :=
  match mm with
  | [] => .unset
  | j0 :: _ => match objectType m j0.trajs .unset with
    | .ok ty => ty
    | .error _ => .unset

/-- What a prediction adds under a type and a step: its statistics at that step if it is of the type. -/
noncomputable def contribution (overlaps : Box → Box → Bool) (c : Cfg) (m : Tracks) (s : Scenario) (mm : Multi)
    (k : ObjType × ℤ) : Den :=
  (c.steps.map fun sc => if k = (typeOf m mm, sc.step) then denOf (stepStats overlaps c m s mm sc) else 0).sum

/-- A prediction with at least one joint prediction with at least one trajectory in the first. -/
def HasPredictions (mm : Multi) : Bool :=
  match mm with
  | [] => false
  | j0 :: _ => !j0.trajs.isEmpty

theorem multiStats_ok {c : Cfg} {m : Tracks} (h : Ready c m) (hsc : Scaled c) {s : Scenario} (hfull : FullTracks c s)
    (h2 : 2 ≤ predictionSteps c) (hk : 0 < c.maxPred) (hst : ∀ sc ∈ c.steps, 0 ≤ sc.step ∧ sc.step < predictionSteps c)
    {j0 : Joint} {js : Multi} (hne : j0.trajs ≠ []) (hc : ∀ j ∈ j0 :: js, 0 ≤ j.conf)
    (hm : ∀ j ∈ j0 :: js, ∀ t ∈ j.trajs, TrajReady c m t) (overlaps : Box → Box → Bool) {r : Stats} (hr : r.Fine) :
    ∃ r', multiStats overlaps c m s (j0 :: js) j0 r = .ok r' ∧ r'.Fine ∧
      (∀ k, r'.den k = r.den k + contribution overlaps c m s (j0 :: js) k) ∧
      ∀ k, k ∈ r'.keys ↔ k ∈ r.keys ∨ ∃ sc ∈ c.steps, k = (typeOf m (j0 :: js), sc.step) := by
  obtain ⟨ty, hty, _⟩ := objectType_spec hne (fun t ht => (hm j0 (by simp) t ht).known)
  have htyOf : typeOf m (j0 :: js) = ty := by unfold typeOf; simp only [hty]
  unfold multiStats contribution
  rw [hty, htyOf]
  simp only [bind, Except.bind]
  have key : ∀ (l : List StepCfg) (r : Stats), (∀ sc ∈ l, 0 ≤ sc.step ∧ sc.step < predictionSteps c) → r.Fine →
      ∃ r', l.foldlM (fun r sc => do
        let v ← stepStats overlaps c m s (j0 :: js) sc
        r.addTo (ty, sc.step) v) r = .ok r' ∧ r'.Fine ∧
      (∀ k, r'.den k = r.den k +
        (l.map fun sc => if k = (ty, sc.step) then denOf (stepStats overlaps c m s (j0 :: js) sc) else 0).sum) ∧
      ∀ k, k ∈ r'.keys ↔ k ∈ r.keys ∨ ∃ sc ∈ l, k = (ty, sc.step) := by
    intro l
    induction l with
    | nil => intro r _ hr; exact ⟨r, rfl, hr, fun k => by simp, fun k => by simp⟩
    | cons sc rest ih =>
      intro r hl hr
      obtain ⟨q0, q1⟩ := hl sc (by simp)
      obtain ⟨v, hv, hg, hs, _⟩ := stepStats_ok h hsc hfull h2 hk (by simp) hc hm overlaps q0 q1
      obtain ⟨r1, a1, a2, a3, a4⟩ := Stats.addTo_spec hr.1 (ty, sc.step) hg
      obtain ⟨r2, b1, b2, b3, b4⟩ := ih r1 (fun x hx => hl x (List.mem_cons_of_mem _ hx))
        (Stats.addTo_fine hr hg hs a1)
      refine ⟨r2, ?_, b2, ?_, ?_⟩
      · rw [List.foldlM_cons, hv]
        simp only [bind, Except.bind, a1] at b1 ⊢
        exact b1
      · intro k
        rw [b3, a3, List.map_cons, List.sum_cons, hv, add_assoc]
        rfl
      · intro k
        rw [b4, a4]
        simp only [List.mem_cons, exists_eq_or_imp]
        tauto
  exact key c.steps r hst hr

/-- The predictions that are evaluated: those before the first one without predictions. -/
def evaluated (l : List Multi) : List Multi := l.takeWhile HasPredictions

theorem computeAll_ok {c : Cfg} {m : Tracks} (h : Ready c m) (hsc : Scaled c) {s : Scenario} (hfull : FullTracks c s)
    (h2 : 2 ≤ predictionSteps c) (hk : 0 < c.maxPred) (hst : ∀ sc ∈ c.steps, 0 ≤ sc.step ∧ sc.step < predictionSteps c)
    (overlaps : Box → Box → Bool) : ∀ (l : List Multi) (r : Stats), (∀ mm ∈ l, ∀ j ∈ mm, 0 ≤ j.conf) →
    (∀ mm ∈ l, ∀ j ∈ mm, ∀ t ∈ j.trajs, TrajReady c m t) → r.Fine →
    ∃ r', computeAll overlaps c m s l r = .ok r' ∧ r'.Fine ∧
      (∀ k, r'.den k = r.den k + ((evaluated l).map fun mm => contribution overlaps c m s mm k).sum) ∧
      ∀ k, k ∈ r'.keys ↔ k ∈ r.keys ∨ ∃ mm ∈ evaluated l, ∃ sc ∈ c.steps, k = (typeOf m mm, sc.step) := by
  intro l
  induction l with
  | nil => intro r _ _ hr; exact ⟨r, rfl, hr, fun k => by simp [evaluated], fun k => by simp [evaluated]⟩
  | cons mm rest ih =>
    intro r hc hm hr
    cases mm with
    | nil =>
      exact ⟨r, rfl, hr, fun k => by simp [evaluated, HasPredictions], fun k => by simp [evaluated, HasPredictions]⟩
    | cons j0 js =>
      unfold computeAll
      by_cases hne : j0.trajs = []
      · rw [if_pos (by simp [hne])]
        exact ⟨r, rfl, hr, fun k => by simp [evaluated, HasPredictions, hne],
          fun k => by simp [evaluated, HasPredictions, hne]⟩
      · rw [if_neg (by simpa using hne)]
        have he : evaluated ((j0 :: js) :: rest) = (j0 :: js) :: evaluated rest := by
          unfold evaluated
          rw [List.takeWhile_cons_of_pos (by simp [HasPredictions, hne])]
        obtain ⟨r1, a1, a2, a3, a4⟩ := multiStats_ok h hsc hfull h2 hk hst hne
          (hc (j0 :: js) (by simp)) (hm (j0 :: js) (by simp)) overlaps hr
        obtain ⟨r2, b1, b2, b3, b4⟩ := ih r1 (fun x hx => hc x (List.mem_cons_of_mem _ hx))
          (fun x hx => hm x (List.mem_cons_of_mem _ hx)) a2
        refine ⟨r2, ?_, b2, ?_, ?_⟩
        · simp only [bind, Except.bind, a1]; exact b1
        · intro k
          rw [b3, a3, he, List.map_cons, List.sum_cons, add_assoc]
        · intro k
          rw [b4, a4, he]
          simp only [List.mem_cons, exists_eq_or_imp]
          exact or_assoc

/-! ### Validation -/

theorem validateMultiLoop_sizes {size : ℤ} : ∀ (l : Multi) (ids out r : List ℤ),
    validateMultiLoop size l ids out = .ok r →
    ∀ j ∈ l, ∀ t ∈ j.trajs, (t.xs.length : ℤ) = size ∧ (t.ys.length : ℤ) = size := by
  intro l
  induction l with
  | nil => intro _ _ _ _ j hj; simp at hj
  | cons a rest ih =>
    intro ids out r h j hj t ht
    unfold validateMultiLoop at h
    split at h
    · simp at h
    · rename_i hn
      simp only at h
      generalize (if ids.isEmpty then a.trajs.map (·.id) else ids) = ids' at h
      split at h
      · rcases List.mem_cons.mp hj with rfl | hj
        · by_contra hq
          exact hn (List.any_eq_true.mpr ⟨t, ht, decide_eq_true (by tauto)⟩)
        · exact ih _ _ _ h j hj t ht
      · simp at h

theorem validateMultis_sizes {size : ℤ} : ∀ (l : List Multi) (out r : List ℤ), validateMultis size l out = .ok r →
    ∀ mm ∈ l, ∀ j ∈ mm, ∀ t ∈ j.trajs, (t.xs.length : ℤ) = size ∧ (t.ys.length : ℤ) = size := by
  intro l
  induction l with
  | nil => intro _ _ _ mm hmm; simp at hmm
  | cons a rest ih =>
    intro out r h mm hmm
    unfold validateMultis at h
    cases hv : validateMulti size a out with
    | error e => rw [hv] at h; simp [bind, Except.bind] at h
    | ok o =>
      rw [hv] at h
      rcases List.mem_cons.mp hmm with rfl | hmm
      · exact validateMultiLoop_sizes _ _ _ _ hv
      · exact ih o r h mm hmm

theorem validateIds_known {p : Preds} {m : Tracks} (h : validateIds p m = .ok ()) :
    ∀ mm ∈ p.multis, ∀ j ∈ mm, ∀ t ∈ j.trajs, (trackOf m t.id).isSome := by
  unfold validateIds at h
  split at h
  · simp at h
  · rename_i hn
    intro mm hmm j hj t ht
    by_contra hq
    refine hn (List.any_eq_true.mpr ⟨mm, hmm, List.any_eq_true.mpr ⟨j, hj, List.any_eq_true.mpr ⟨t, ht, ?_⟩⟩⟩)
    unfold trackOf at hq
    cases hf : m.find? fun e => e.1 == t.id with
    | none => rfl
    | some e => rw [hf] at hq; simp at hq

theorem idsToTracks_ids : ∀ (l : List Track) (m : Tracks), (∀ e ∈ m, e.2.id = e.1) →
    ∀ e ∈ idsToTracks l m, e.2.id = e.1 := by
  intro l
  induction l with
  | nil => intro m h; exact h
  | cons t rest ih =>
    intro m h
    refine ih _ ?_
    intro e he
    rcases List.mem_cons.mp he with rfl | he
    · rfl
    · exact h e (List.mem_of_mem_filter he)

theorem validateTracks_sizes {c : Cfg} {m : Tracks} (h : validateTracks c m = .ok ()) :
    ∀ e ∈ m, (e.2.states.length : ℤ) = c.history + c.future + 1 := by
  unfold validateTracks at h
  split at h
  · simp at h
  · rename_i hn
    intro e he
    by_contra hq
    exact hn (List.any_eq_true.mpr ⟨e, he, decide_eq_true hq⟩)

/-- The tracks that are to be predicted, by their ids; none if an index is out of range. -/
def requiredTracks (s : Scenario) : Tracks :=
  match s.toPredict.mapM (requiredTrack s) with
  | .ok ts => idsToTracks ts []
  | .error _ => []

/-- What has been validated. -/
theorem computeMetricsStats_cases {c : Cfg} (hp : 0 < c.predSps) (p : Preds) (s : Scenario)
    (overlaps : Box → Box → Bool) (r : Stats) :
    computeMetricsStats overlaps c p s r = .error .invalid ∨
    (computeMetricsStats overlaps c p s r = computeAll overlaps c (requiredTracks s) s p.multis r ∧
      validateConfig c = .ok () ∧
      (∀ mm ∈ p.multis, ∀ j ∈ mm, ∀ t ∈ j.trajs, (t.xs.length : ℤ) = predictionSteps c ∧
        (t.ys.length : ℤ) = predictionSteps c ∧ (trackOf (requiredTracks s) t.id).isSome) ∧
      (∀ e ∈ requiredTracks s, (e.2.states.length : ℤ) = c.history + c.future + 1 ∧ e.2.id = e.1)) := by
  have hreq : ∀ i, requiredTrack s i = .error .invalid ∨ ∃ t, requiredTrack s i = .ok t := by
    intro i
    unfold requiredTrack
    by_cases h : i ≥ s.tracks.length ∨ i < 0
    · rw [if_pos h]; exact Or.inl rfl
    · rw [if_neg h]
      obtain ⟨a, ha, _⟩ := at'_ok (l := s.tracks) (i := i) (by omega) (by omega)
      exact Or.inr ⟨a, ha⟩
  have hreqs : ∀ l : List ℤ, l.mapM (requiredTrack s) = .error .invalid ∨ ∃ ts, l.mapM (requiredTrack s) = .ok ts := by
    intro l
    induction l with
    | nil => exact Or.inr ⟨[], rfl⟩
    | cons i rest ih =>
      rw [List.mapM_cons]
      rcases hreq i with h | ⟨t, h⟩
      · rw [h]; exact Or.inl rfl
      · rw [h]
        rcases ih with h' | ⟨ts, h'⟩
        · rw [h']; exact Or.inl rfl
        · rw [h']; exact Or.inr ⟨_, rfl⟩
  have hcfg : validateConfig c = .error .invalid ∨ validateConfig c = .ok () := by
    unfold validateConfig
    split
    · exact Or.inl rfl
    · rename_i h1
      rw [if_neg hp.ne']
      split
      · exact Or.inl rfl
      · rw [if_neg (by omega)]
        split
        · exact Or.inl rfl
        · exact Or.inr rfl
  have hloop : ∀ (l : Multi) (ids out : List ℤ), validateMultiLoop (predictionSteps c) l ids out = .error .invalid ∨
      ∃ o, validateMultiLoop (predictionSteps c) l ids out = .ok o := by
    intro l
    induction l with
    | nil => intro _ out; exact Or.inr ⟨out, rfl⟩
    | cons a rest ih =>
      intro ids out
      unfold validateMultiLoop
      split
      · exact Or.inl rfl
      · simp only
        generalize (if ids.isEmpty then a.trajs.map (·.id) else ids) = ids'
        split
        · exact ih _ _
        · exact Or.inl rfl
  have hmultis : ∀ (l : List Multi) (out : List ℤ), validateMultis (predictionSteps c) l out = .error .invalid ∨
      ∃ o, validateMultis (predictionSteps c) l out = .ok o := by
    intro l
    induction l with
    | nil => intro out; exact Or.inr ⟨out, rfl⟩
    | cons a rest ih =>
      intro out
      unfold validateMultis
      rcases hloop a [] out with h | ⟨o, h⟩
      · rw [show validateMulti (predictionSteps c) a out = _ from h]; exact Or.inl rfl
      · rw [show validateMulti (predictionSteps c) a out = _ from h]; exact ih o
  unfold computeMetricsStats
  rcases hcfg with hc | hc
  · rw [hc]; exact Or.inl rfl
  · rw [hc]
    simp only [bind, Except.bind]
    unfold validatePredictions
    split
    · rename_i e he
      left
      split at he
      · simp only [Except.error.injEq] at he; rw [← he]
      · rcases hmultis p.multis [] with h | ⟨o, h⟩
        · rw [h] at he; simp only [bind, Except.bind, Except.error.injEq] at he; rw [← he]
        · rw [h] at he
          simp only [bind, Except.bind] at he
          unfold validateRequired at he
          rcases hreqs s.toPredict with h' | ⟨ts, h'⟩
          · rw [h'] at he; simp only [bind, Except.bind, Except.error.injEq] at he; rw [← he]
          · rw [h'] at he
            simp only [bind, Except.bind] at he
            split at he
            · simp at he
            · simp only [Except.error.injEq] at he; rw [← he]
    · rename_i he
      split at he
      · simp at he
      · rcases hmultis p.multis [] with h | ⟨o, h⟩
        · rw [h] at he; simp [bind, Except.bind] at he
        · rcases hreqs s.toPredict with h' | ⟨ts, h'⟩
          · rw [h']; exact Or.inl rfl
          · rw [h']
            have hm : requiredTracks s = idsToTracks ts [] := by unfold requiredTracks; rw [h']
            simp only
            rw [← hm]
            by_cases hvt : validateTracks c (requiredTracks s) = .ok ()
            · rw [hvt]
              by_cases hvi : validateIds p (requiredTracks s) = .ok ()
              · rw [hvi]
                right
                refine ⟨rfl, trivial, ?_, ?_⟩
                · intro mm hmm j hj t ht
                  have h3 := validateMultis_sizes _ _ _ h mm hmm j hj t ht
                  exact ⟨h3.1, h3.2, validateIds_known hvi mm hmm j hj t ht⟩
                · intro e he
                  exact ⟨validateTracks_sizes hvt e he, idsToTracks_ids ts [] (by simp) e (by rw [← hm]; exact he)⟩
              · left
                have : validateIds p (requiredTracks s) = .error .invalid := by
                  unfold validateIds at hvi ⊢
                  split
                  · rfl
                  · rename_i hn; rw [if_neg hn] at hvi; exact absurd rfl hvi
                rw [this]
            · left
              have : validateTracks c (requiredTracks s) = .error .invalid := by
                unfold validateTracks at hvt ⊢
                split
                · rfl
                · rename_i hn; rw [if_neg hn] at hvt; exact absurd rfl hvt
              rw [this]

/-- C24, C25, C26, partial in the side conditions `Sound`: an evaluation either rejects its input or adds, under every
type and step, the contributions of the evaluated predictions; it never reads outside of a list, divides by zero or
fails otherwise. -/
theorem computeMetricsStats_partial {c : Cfg} {s : Scenario} {p : Preds} (hs : Sound c s p)
    (overlaps : Box → Box → Bool) {r : Stats} (hr : r.Fine) :
    computeMetricsStats overlaps c p s r = .error .invalid ∨
    ∃ r', computeMetricsStats overlaps c p s r = .ok r' ∧ r'.Fine ∧
      (∀ k, r'.den k = r.den k +
        ((evaluated p.multis).map fun mm => contribution overlaps c (requiredTracks s) s mm k).sum) ∧
      ∀ k, k ∈ r'.keys ↔ k ∈ r.keys ∨
        ∃ mm ∈ evaluated p.multis, ∃ sc ∈ c.steps, k = (typeOf (requiredTracks s) mm, sc.step) := by
  rcases computeMetricsStats_cases hs.predPos p s overlaps r with h | ⟨h, hc, ht, hm⟩
  · exact Or.inl h
  · right
    obtain ⟨h1, h2, h3⟩ := (validateConfig_ok hs.predPos).mp hc
    have hready : Ready c (requiredTracks s) :=
      ⟨hs.predPos, h2, h1, hs.hist, fun e he => (hm e he).1, fun e he => (hm e he).2⟩
    rw [h]
    exact computeAll_ok hready hs.scaled hs.full hs.two hs.maxPos (fun sc hsc => ⟨(h3 sc hsc).1, hs.steps sc hsc⟩)
      overlaps p.multis r hs.conf (fun mm hmm j hj t ht' =>
        ⟨(ht mm hmm j hj t ht').1, (ht mm hmm j hj t ht').2.1, (ht mm hmm j hj t ht').2.2⟩) hr

/-- C24: the evaluation of such input never fails otherwise than by rejecting it. -/
theorem computeMetricsStats_no_crash {c : Cfg} {s : Scenario} {p : Preds} (hs : Sound c s p)
    (overlaps : Box → Box → Bool) {r : Stats} (hr : r.Fine) : computeMetricsStats overlaps c p s r ≠ .error .crash := by
  rcases computeMetricsStats_partial hs overlaps hr with h | ⟨r', h, _⟩
  · rw [h]; simp
  · rw [h]; simp

/-- C25, partial: if every prediction has predictions then each of them contributes. -/
theorem all_contribute_partial {l : List Multi} (h : ∀ mm ∈ l, HasPredictions mm = true) : evaluated l = l := by
  unfold evaluated
  induction l with
  | nil => rfl
  | cons a rest ih =>
    rw [List.takeWhile_cons_of_pos (h a (by simp)), ih fun x hx => h x (List.mem_cons_of_mem _ hx)]

/-! ### C26: many scenarios -/

theorem allStats_fine {overlaps : Box → Box → Bool} {c : Cfg} : ∀ (l : List (Preds × Option Scenario)) (r : Stats),
    (∀ e ∈ l, ∀ s, e.2 = some s → Sound c s e.1) → r.Fine →
    allStats overlaps c l r = .error .invalid ∨ ∃ r', allStats overlaps c l r = .ok r' ∧ r'.Fine := by
  intro l
  induction l with
  | nil => intro r _ hr; exact Or.inr ⟨r, rfl, hr⟩
  | cons e rest ih =>
    intro r hl hr
    obtain ⟨p, o⟩ := e
    cases o with
    | none => exact Or.inl rfl
    | some s =>
      unfold allStats
      rcases computeMetricsStats_partial (hl (p, some s) (by simp) s rfl) overlaps (r := []) ⟨Stats.good_nil, by simp⟩ with
        h | ⟨own, h, hf, _⟩
      · rw [h]; exact Or.inl rfl
      · obtain ⟨r1, h1, _⟩ := Stats.accumulate_spec hr.1 hf.1
        simp only [h, h1, bind, Except.bind]
        exact ih r1 (fun x hx => hl x (List.mem_cons_of_mem _ hx)) (Stats.accumulate_fine hr hf h1)

/-- The statistics of one scenario. -/
noncomputable def ownStats (overlaps : Box → Box → Bool) (c : Cfg) (e : Preds × Option Scenario) : Res Stats :=
  match e.2 with
  | none => .error .invalid
  | some s => computeMetricsStats overlaps c e.1 s []

theorem allStats_den {overlaps : Box → Box → Bool} {c : Cfg} : ∀ (l : List (Preds × Option Scenario)) (r r' : Stats),
    (∀ e ∈ l, ∀ s, e.2 = some s → Sound c s e.1) → r.Fine → allStats overlaps c l r = .ok r' →
    ∃ own, l.mapM (ownStats overlaps c) = .ok own ∧
      (∀ k, r'.den k = r.den k + (own.map fun o => o.den k).sum) ∧
      ∀ k, k ∈ r'.keys ↔ k ∈ r.keys ∨ ∃ o ∈ own, k ∈ Stats.keys o := by
  intro l
  induction l with
  | nil =>
    intro r r' _ _ h
    simp only [allStats, Except.ok.injEq] at h
    exact ⟨[], rfl, fun k => by simp [h], fun k => by simp [h]⟩
  | cons e rest ih =>
    intro r r' hl hr h
    obtain ⟨p, o⟩ := e
    cases o with
    | none => simp [allStats] at h
    | some s =>
      unfold allStats at h
      rcases computeMetricsStats_partial (hl (p, some s) (by simp) s rfl) overlaps (r := []) ⟨Stats.good_nil, by simp⟩ with
        hq | ⟨own, hq, hf, _⟩
      · rw [hq] at h; simp [bind, Except.bind] at h
      · obtain ⟨r1, h1, _, d1, k1⟩ := Stats.accumulate_spec hr.1 hf.1
        simp only [hq, h1, bind, Except.bind] at h
        obtain ⟨owns, h2, h3, h4⟩ := ih r1 r' (fun x hx => hl x (List.mem_cons_of_mem _ hx))
          (Stats.accumulate_fine hr hf h1) h
        refine ⟨own :: owns, ?_, ?_, ?_⟩
        · rw [List.mapM_cons, h2]
          have : ownStats overlaps c (p, some s) = .ok own := hq
          rw [this]
          rfl
        · intro k
          rw [h3, d1, List.map_cons, List.sum_cons, add_assoc]
        · intro k
          rw [h4, k1]
          simp only [List.mem_cons, exists_eq_or_imp]
          tauto

theorem mapM_res_perm {α β : Type} {f : α → Res β} {l l' : List α} (h : l.Perm l') {r : List β} (hr : l.mapM f = .ok r) :
    ∃ r', l'.mapM f = .ok r' ∧ r.Perm r' := by
  have cons_ok : ∀ (a : α) (l : List α) (r : List β), (a :: l).mapM f = .ok r →
      ∃ b q, f a = .ok b ∧ l.mapM f = .ok q ∧ r = b :: q := by
    intro a l r h
    rw [List.mapM_cons] at h
    cases ha : f a with
    | error e => rw [ha] at h; simp [bind, Except.bind] at h
    | ok b =>
      cases hl : l.mapM f with
      | error e => rw [ha, hl] at h; simp [bind, Except.bind] at h
      | ok q =>
        rw [ha, hl] at h
        simp only [bind, Except.bind, pure, Except.pure, Except.ok.injEq] at h
        exact ⟨b, q, rfl, rfl, h.symm⟩
  have mk_cons : ∀ (a : α) (l : List α) (b : β) (q : List β), f a = .ok b → l.mapM f = .ok q →
      (a :: l).mapM f = .ok (b :: q) := by
    intro a l b q h1 h2
    rw [List.mapM_cons, h1, h2]
    rfl
  induction h generalizing r with
  | nil => exact ⟨r, hr, List.Perm.refl _⟩
  | cons a _ ih =>
    obtain ⟨b, q, h1, h2, rfl⟩ := cons_ok _ _ _ hr
    obtain ⟨q', h3, h4⟩ := ih h2
    exact ⟨b :: q', mk_cons _ _ _ _ h1 h3, h4.cons _⟩
  | swap a b l =>
    obtain ⟨x, q, h1, h2, rfl⟩ := cons_ok _ _ _ hr
    obtain ⟨y, q', h3, h4, rfl⟩ := cons_ok _ _ _ h2
    exact ⟨y :: x :: q', mk_cons _ _ _ _ h3 (mk_cons _ _ _ _ h1 h4), List.Perm.swap _ _ _⟩
  | trans _ _ ih1 ih2 =>
    obtain ⟨q, h1, h2⟩ := ih1 hr
    obtain ⟨q', h3, h4⟩ := ih2 h1
    exact ⟨q', h3, h2.trans h4⟩

theorem mapM_error {overlaps : Box → Box → Bool} {c : Cfg} : ∀ (l : List (Preds × Option Scenario)) (r : Stats),
    (∀ e ∈ l, ∀ s, e.2 = some s → Sound c s e.1) → r.Fine → ∀ own, l.mapM (ownStats overlaps c) = .ok own →
    ∃ r', allStats overlaps c l r = .ok r' := by
  intro l
  induction l with
  | nil => intro r _ _ _ _; exact ⟨r, rfl⟩
  | cons e rest ih =>
    intro r hl hr own h
    obtain ⟨p, o⟩ := e
    rw [List.mapM_cons] at h
    cases o with
    | none => simp [ownStats, bind, Except.bind] at h
    | some s =>
      rcases computeMetricsStats_partial (hl (p, some s) (by simp) s rfl) overlaps (r := []) ⟨Stats.good_nil, by simp⟩ with
        hq | ⟨o1, hq, hf, _⟩
      · simp [ownStats, hq, bind, Except.bind] at h
      · obtain ⟨r1, h1, _, d1, k1⟩ := Stats.accumulate_spec hr.1 hf.1
        cases hrest : rest.mapM (ownStats overlaps c) with
        | error e => rw [hrest] at h; simp [ownStats, hq, bind, Except.bind] at h
        | ok q =>
          obtain ⟨r', hr'⟩ := ih r1 (fun x hx => hl x (List.mem_cons_of_mem _ hx)) (Stats.accumulate_fine hr hf h1) q hrest
          exact ⟨r', by unfold allStats; simp only [hq, h1, bind, Except.bind]; exact hr'⟩

/-- C26: the metrics of a set of scenarios do not depend on the order in which the scenarios are evaluated (the code
iterates over a hash map). -/
theorem allStats_perm {overlaps : Box → Box → Bool} {c : Cfg} {l l' : List (Preds × Option Scenario)} (hp : l.Perm l')
    (hs : ∀ e ∈ l, ∀ s, e.2 = some s → Sound c s e.1) {r : Stats} (hr : allStats overlaps c l [] = .ok r) :
    ∃ r' q q', allStats overlaps c l' [] = .ok r' ∧ motionMetrics r = some q ∧ motionMetrics r' = some q' ∧
      q.Perm q' := by
  have hs' : ∀ e ∈ l', ∀ s, e.2 = some s → Sound c s e.1 := fun e he => hs e (hp.symm.subset he)
  have h0 : Stats.Fine [] := ⟨Stats.good_nil, by simp⟩
  obtain ⟨own, h1, h2, h3⟩ := allStats_den l [] r hs h0 hr
  obtain ⟨own', h4, h5⟩ := mapM_res_perm hp h1
  obtain ⟨r', h6⟩ := mapM_error l' [] hs' h0 own' h4
  obtain ⟨own'', h7, h8, h9⟩ := allStats_den l' [] r' hs' h0 h6
  rw [h4] at h7
  cases h7
  have g : r.Good := by
    rcases allStats_fine l [] hs h0 (overlaps := overlaps) with h | ⟨x, h, hx⟩
    · rw [h] at hr; simp at hr
    · rw [h] at hr; cases hr; exact hx.1
  have g' : r'.Good := by
    rcases allStats_fine l' [] hs' h0 (overlaps := overlaps) with h | ⟨x, h, hx⟩
    · rw [h] at h6; simp at h6
    · rw [h] at h6; cases h6; exact hx.1
  obtain ⟨q, q', e1, e2, e3⟩ := motionMetrics_congr g g'
    (fun k => by
      rw [h3, h9]
      constructor
      · rintro (h | ⟨o, ho, hk⟩)
        · exact Or.inl h
        · exact Or.inr ⟨o, h5.subset ho, hk⟩
      · rintro (h | ⟨o, ho, hk⟩)
        · exact Or.inl h
        · exact Or.inr ⟨o, h5.symm.subset ho, hk⟩)
    (fun k => by
      rw [h2, h8]
      congr 1
      exact (h5.map _).sum_eq)
  exact ⟨r', q, q', h6, e1, e2, e3⟩

theorem allStats_cons (overlaps : Box → Box → Bool) (c : Cfg) (p : Preds) (s : Scenario)
    (rest : List (Preds × Option Scenario)) (r : Stats) : allStats overlaps c ((p, some s) :: rest) r = (do
      let own ← computeMetricsStats overlaps c p s []
      let r ← r.accumulate own
      allStats overlaps c rest r) := rfl

theorem allStats_append {overlaps : Box → Box → Bool} {c : Cfg} : ∀ (a b : List (Preds × Option Scenario)) (r : Stats),
    allStats overlaps c (a ++ b) r = (do let x ← allStats overlaps c a r; allStats overlaps c b x) := by
  intro a
  induction a with
  | nil => intro b r; rfl
  | cons e rest ih =>
    intro b r
    obtain ⟨p, o⟩ := e
    cases o with
    | none => rfl
    | some s =>
      rw [List.cons_append, allStats_cons, allStats_cons]
      cases computeMetricsStats overlaps c p s [] with
      | error e => rfl
      | ok own =>
        cases h : r.accumulate own with
        | error e => simp only [bind, Except.bind, h]
        | ok r1 =>
          have := ih b r1
          simp only [bind, Except.bind, h] at this ⊢
          exact this

/-- C26: evaluating two shards and merging their statistics gives the metrics of the whole. -/
theorem allStats_shards {overlaps : Box → Box → Bool} {c : Cfg} {a b : List (Preds × Option Scenario)}
    (hs : ∀ e ∈ a ++ b, ∀ s, e.2 = some s → Sound c s e.1) {ra rb : Stats} (ha : allStats overlaps c a [] = .ok ra)
    (hb : allStats overlaps c b [] = .ok rb) :
    ∃ merged r q q', ra.accumulate rb = .ok merged ∧ allStats overlaps c (a ++ b) [] = .ok r ∧
      motionMetrics merged = some q ∧ motionMetrics r = some q' ∧ q.Perm q' := by
  have h0 : Stats.Fine [] := ⟨Stats.good_nil, by simp⟩
  have hsa : ∀ e ∈ a, ∀ s, e.2 = some s → Sound c s e.1 := fun e he => hs e (List.mem_append_left _ he)
  have hsb : ∀ e ∈ b, ∀ s, e.2 = some s → Sound c s e.1 := fun e he => hs e (List.mem_append_right _ he)
  have fine : ∀ {l r r0}, (∀ e ∈ l, ∀ s, e.2 = some s → Sound c s e.1) → Stats.Fine r0 →
      allStats overlaps c l r0 = .ok r → Stats.Fine r := by
    intro l r r0 hl hr0 hr
    rcases allStats_fine l r0 hl hr0 (overlaps := overlaps) with h | ⟨x, h, hx⟩
    · rw [h] at hr; simp at hr
    · rw [h] at hr; cases hr; exact hx
  have fa := fine hsa h0 ha
  have fb := fine hsb h0 hb
  obtain ⟨merged, m1, m2, m3, m4⟩ := Stats.accumulate_spec fa.1 fb.1
  obtain ⟨ob, b1, b2, b3⟩ := allStats_den b [] rb hsb h0 hb
  obtain ⟨r, hr⟩ := mapM_error b ra hsb fa ob b1
  obtain ⟨ob', b1', b2', b3'⟩ := allStats_den b ra r hsb fa hr
  rw [b1] at b1'
  cases b1'
  have hab : allStats overlaps c (a ++ b) [] = .ok r := by rw [allStats_append, ha]; exact hr
  obtain ⟨q, q', e⟩ := motionMetrics_congr m2 (fine hsb fa hr).1
    (fun k => by rw [m4, b3', b3]; simp [Stats.keys])
    (fun k => by
      have : Stats.den [] k = 0 := MStats.den_zero
      rw [m3, b2', b2, this, zero_add])
  exact ⟨merged, r, q, q', m1, hab, e⟩

/-! ### Examples and counterexamples -/

/-- A parked car, valid at three steps. -/
noncomputable def exampleTrack : Track :=
  ⟨7, .vehicle, [⟨0, 0, 0, 0, 0, 4, 2, true⟩, ⟨0, 0, 0, 0, 0, 4, 2, true⟩, ⟨0, 0, 0, 0, 0, 4, 2, true⟩]⟩

noncomputable def exampleScenario : Scenario := ⟨"s", [exampleTrack], [0]⟩

/-- One prediction that drives away. -/
noncomputable def exampleMulti : Multi := [⟨1, [⟨7, [1, 2], [0, 0]⟩]⟩]

/-- Two predicted steps, the last one measured. -/
noncomputable def exampleCfg : Cfg := ⟨1, 1, 0, 2, 1, 2, 1 / 2, 1, [⟨1, 1, 2⟩], 6⟩

theorem example_sound (multis : List Multi) (h : ∀ mm ∈ multis, mm = [] ∨ mm = exampleMulti) :
    Sound exampleCfg exampleScenario ⟨"s", multis⟩ := by
  refine ⟨by decide, by decide, by decide, by decide, ⟨?_, ?_, ?_⟩, ?_, ?_, ?_⟩
  · norm_num [exampleCfg]
  · norm_num [exampleCfg]
  · norm_num [exampleCfg]
  · intro sc hsc
    simp only [exampleCfg, List.mem_singleton] at hsc
    subst hsc
    decide
  · intro tk htk
    simp only [exampleScenario, List.mem_singleton] at htk
    subst htk
    rfl
  · intro mm hmm j hj
    rcases h mm hmm with rfl | rfl
    · simp at hj
    · simp only [exampleMulti, List.mem_singleton] at hj
      rw [hj]
      exact zero_le_one

/-- C24 is violated: a measurement step equal to the number of prediction steps is accepted, and the evaluation reads
after the end of the track. -/
theorem config_violated (overlaps : Box → Box → Bool) :
    validateConfig { exampleCfg with steps := [⟨2, 1, 2⟩] } = .ok () ∧
    computeMetricsStats overlaps { exampleCfg with steps := [⟨2, 1, 2⟩] } ⟨"s", [exampleMulti]⟩ exampleScenario [] =
      .error .crash := ⟨rfl, rfl⟩

/-- C24 is violated: a prediction rate of zero is not rejected; the validation divides by it. -/
theorem config_zero_rate_violated : validateConfig { exampleCfg with predSps := 0 } = .error .crash := rfl

/-- The configuration of the challenge is accepted, and every measured step addresses existing steps. -/
theorem challengeConfig_ok : validateConfig challengeConfig = .ok () ∧ 0 < challengeConfig.predSps ∧
    (∀ sc ∈ challengeConfig.steps, sc.step < predictionSteps challengeConfig) ∧ Scaled challengeConfig ∧
    2 ≤ predictionSteps challengeConfig ∧ 0 < challengeConfig.maxPred := by
  refine ⟨rfl, by decide, ?_, ⟨?_, ?_, ?_⟩, by decide, by decide⟩
  · intro sc hsc
    simp only [challengeConfig, List.mem_cons, List.not_mem_nil, or_false] at hsc
    rcases hsc with rfl | rfl | rfl <;> decide
  all_goals norm_num [challengeConfig]

/-- C24 to C26: the hypotheses of the theorems are met by an example, which is not rejected. -/
theorem example_evaluates (overlaps : Box → Box → Bool) : ∃ r,
    computeMetricsStats overlaps exampleCfg ⟨"s", [exampleMulti]⟩ exampleScenario [] = .ok r ∧ r.Fine ∧
      r.keys ≠ [] := by
  have h0 : Stats.Fine [] := ⟨Stats.good_nil, by simp⟩
  rcases computeMetricsStats_partial (example_sound [exampleMulti] (by simp)) overlaps h0 with h | ⟨r, h, hf, _, hk⟩
  · exfalso
    rcases computeMetricsStats_cases (c := exampleCfg) (by decide) ⟨"s", [exampleMulti]⟩ exampleScenario overlaps [] with
      h' | ⟨h', hc, ht, hm⟩
    · have hc : validateConfig exampleCfg = .ok () := rfl
      have hp : validatePredictions exampleCfg ⟨"s", [exampleMulti]⟩ exampleScenario = .ok () := rfl
      have ht : exampleScenario.toPredict.mapM (requiredTrack exampleScenario) = .ok [exampleTrack] := rfl
      have hv : validateTracks exampleCfg (idsToTracks [exampleTrack] []) = .ok () := rfl
      have hi : validateIds ⟨"s", [exampleMulti]⟩ (idsToTracks [exampleTrack] []) = .ok () := rfl
      have hready : Ready exampleCfg (idsToTracks [exampleTrack] []) :=
        ⟨by decide, ⟨1, rfl⟩, by decide, by decide, validateTracks_sizes hv, idsToTracks_ids _ _ (by simp)⟩
      have hs := example_sound [exampleMulti] (by simp)
      obtain ⟨r', hr', _⟩ := computeAll_ok hready hs.scaled hs.full hs.two hs.maxPos
        (fun sc hsc => ⟨((validateConfig_ok (by decide)).mp hc).2.2 sc hsc |>.1, hs.steps sc hsc⟩) overlaps
        [exampleMulti] [] hs.conf (by
          intro mm hmm j hj t ht
          have h1 : validateMultis (predictionSteps exampleCfg) [exampleMulti] [] = .ok [7] := rfl
          have h2 := validateMultis_sizes _ _ _ h1 mm hmm j hj t ht
          exact ⟨h2.1, h2.2, validateIds_known hi mm hmm j hj t ht⟩) h0
      unfold computeMetricsStats at h
      simp only [hc, hp, ht, hv, hi, bind, Except.bind, hr'] at h
      simp at h
    · have hs := example_sound [exampleMulti] (by simp)
      obtain ⟨h1, h2, h3⟩ := (validateConfig_ok hs.predPos).mp hc
      obtain ⟨r', hr', _⟩ := computeAll_ok
        ⟨hs.predPos, h2, h1, hs.hist, fun e he => (hm e he).1, fun e he => (hm e he).2⟩ hs.scaled hs.full hs.two
        hs.maxPos (fun sc hsc => ⟨(h3 sc hsc).1, hs.steps sc hsc⟩) overlaps [exampleMulti] [] hs.conf
        (fun mm hmm j hj t ht' =>
          ⟨(ht mm hmm j hj t ht').1, (ht mm hmm j hj t ht').2.1, (ht mm hmm j hj t ht').2.2⟩) h0
      rw [h', hr'] at h
      simp at h
  · refine ⟨r, h, hf, ?_⟩
    have hmem : (typeOf (requiredTracks exampleScenario) exampleMulti, (1 : ℤ)) ∈ r.keys :=
      (hk _).mpr (Or.inr ⟨exampleMulti, by simp [evaluated, HasPredictions, exampleMulti], ⟨1, 1, 2⟩,
        by simp [exampleCfg], rfl⟩)
    exact List.ne_nil_of_mem hmem

/-- C25 is violated: a set without predictions suppresses the sets after it. -/
theorem empty_prediction_violated (overlaps : Box → Box → Bool) :
    computeMetricsStats overlaps exampleCfg ⟨"s", [[], exampleMulti]⟩ exampleScenario [] = .ok [] ∧
    ∃ r, computeMetricsStats overlaps exampleCfg ⟨"s", [exampleMulti]⟩ exampleScenario [] = .ok r ∧ r.keys ≠ [] := by
  refine ⟨rfl, ?_⟩
  obtain ⟨r, h1, _, h2⟩ := example_evaluates overlaps
  exact ⟨r, h1, h2⟩

/-- C28: an instance; the error of the prediction is that of its last sample. -/
theorem example_minDisplacement :
    minDisplacement exampleCfg exampleMulti (requiredTracks exampleScenario) 1 true = .ok ⟨2, 1⟩ := by
  have hready : Ready exampleCfg (requiredTracks exampleScenario) :=
    ⟨by decide, ⟨1, rfl⟩, by decide, by decide, by
      intro e he
      have : e ∈ [((7 : ℤ), exampleTrack)] := he
      rw [List.mem_singleton.mp this]
      rfl, by
      intro e he
      have : e ∈ [((7 : ℤ), exampleTrack)] := he
      rw [List.mem_singleton.mp this]
      rfl⟩
  have htr : trackOf (requiredTracks exampleScenario) 7 = some exampleTrack := rfl
  have hm : ∀ j ∈ exampleMulti, ∀ t ∈ j.trajs, TrajReady exampleCfg (requiredTracks exampleScenario) t := by
    intro j hj t ht
    simp only [exampleMulti, List.mem_singleton] at hj
    subst hj
    simp only [List.mem_singleton] at ht
    subst ht
    exact ⟨rfl, rfl, by rw [htr]; rfl⟩
  have he : jointError exampleCfg (requiredTracks exampleScenario) true 1 ⟨1, [⟨7, [1, 2], [0, 0]⟩]⟩ = some 2 := by
    have h1 : errorAt exampleCfg ⟨7, [1, 2], [0, 0]⟩ exampleTrack 1 = some 2 := by
      have : truthAt exampleCfg exampleTrack 1 = some ⟨0, 0, 0, 0, 0, 4, 2, true⟩ := rfl
      unfold errorAt
      rw [this]
      simp
    simp [jointError, objectError, htr, h1, meanOf]
  have hs := minDisplacement_spec (i := 1) hready hm true (by decide) (by
    intro j hj v hv
    simp only [exampleMulti, List.mem_singleton] at hj
    subst hj
    rw [he] at hv
    cases hv
    have h1 : (2 : ℝ) ^ 2 ≤ 2 ^ (1023 : ℤ) := by
      rw [show (1023 : ℤ) = ((1023 : ℕ) : ℤ) from rfl, zpow_natCast]
      exact pow_le_pow_right₀ (by norm_num) (by norm_num)
    have h2 : (1 : ℝ) ≤ 2 - (2 : ℝ) ^ (-52 : ℤ) := by norm_num
    have h3 : ∀ q : ℝ, 2 ^ 2 ≤ q → 2 < (2 - (2 : ℝ) ^ (-52 : ℤ)) * q := fun q hq => by nlinarith
    have h4 : dblMax = (2 - (2 : ℝ) ^ (-52 : ℤ)) * 2 ^ (1023 : ℤ) := by rfl
    rw [h4]
    exact h3 _ h1)
  rcases hs with ⟨h1, _⟩ | ⟨j, hj, v, h1, _, h2⟩
  · have := h1 ⟨1, [⟨7, [1, 2], [0, 0]⟩]⟩ (by
      show _ ∈ considered 6 exampleMulti
      simp [considered, exampleMulti])
    rw [he] at this
    simp at this
  · have := considered_sub hj
    simp only [exampleMulti, List.mem_singleton] at this
    subst this
    rw [he] at h1
    cases h1
    exact h2

/-! ### C29 -/

open Classical in
/-- C29: with non-negative confidences the overlap metric is one exactly if the most likely of the first predictions
overlaps, at some step up to the measured one, the ground truth of another object that is valid then and at the time of
the prediction. -/
theorem overlapRate_spec {c : Cfg} {m : Tracks} (h : Ready c m) {sc : Scenario} (hfull : FullTracks c sc)
    (h2 : 2 ≤ predictionSteps c) (hk : 0 < c.maxPred) {mm : Multi} (hne : mm ≠ []) (hc : ∀ j ∈ mm, 0 ≤ j.conf)
    (hm : ∀ j ∈ mm, ∀ t ∈ j.trajs, TrajReady c m t) (overlaps : Box → Box → Bool) {step : ℕ}
    (hi : (step : ℤ) < predictionSteps c) :
    ∃ i j, MostLikely c.maxPred mm i j ∧ overlapRate overlaps c step mm m sc =
      .ok ⟨if ∃ t ∈ j.trajs, TrajOverlaps overlaps c m sc step t then 1 else 0, 1⟩ := by
  obtain ⟨i, j, h1, h3⟩ := hasOverlap_ok h hfull h2 hk hne hc hm overlaps hi
  refine ⟨i, j, h1, ?_⟩
  unfold overlapRate
  rw [h3]
  simp [bind, Except.bind, pure, Except.pure, Acc.add, Acc.zero]

/-- The choice is unique. -/
theorem mostLikely_unique {k : ℤ} {mm : Multi} {i i' : ℕ} {j j' : Joint} (h : MostLikely k mm i j)
    (h' : MostLikely k mm i' j') : i = i' ∧ j = j' := by
  have key : i = i' := by
    rcases Nat.lt_trichotomy i i' with hlt | heq | hlt
    · have h1 := (h'.2.2 i j h.1 h.2.1).2 hlt
      have h2 := (h.2.2 i' j' h'.1 h'.2.1).1
      exact absurd h1 (not_lt.mpr h2)
    · exact heq
    · have h1 := (h.2.2 i' j' h'.1 h'.2.1).2 hlt
      have h2 := (h'.2.2 i j h.1 h.2.1).1
      exact absurd h1 (not_lt.mpr h2)
  refine ⟨key, ?_⟩
  have := h.1.symm.trans (key ▸ h'.1)
  exact Option.some.inj this

/-- C29 fails for negative confidences, which are not rejected: normalising by a negative sum reverses their order. -/
theorem likelyIndex_negative_violated : ∃ (c : Cfg) (mm : Multi) (i : ℕ) (j j' : Joint), 0 < c.maxPred ∧
    likelyIndex c mm = .ok i ∧ mm[i]? = some j ∧ j' ∈ mm ∧ j.conf < j'.conf := by
  refine ⟨exampleCfg, [⟨-3, []⟩, ⟨1, []⟩], 0, ⟨-3, []⟩, ⟨1, []⟩, by decide, ?_, rfl, by simp, by norm_num⟩
  have h : normalizedConfidences [⟨-3, []⟩, ⟨1, []⟩] = [3 / 2, -1 / 2] := by
    have hs : confSum [⟨-3, []⟩, ⟨1, []⟩] = -2 := by
      simp only [confSum, List.map_cons, List.map_nil, List.sum_cons, List.sum_nil]; norm_num
    simp only [normalizedConfidences, hs, List.map_cons, List.map_nil]
    norm_num
  unfold likelyIndex
  rw [h]
  have hr : resize [3 / 2, -1 / 2] exampleCfg.maxPred = .ok [3 / 2, -1 / 2, 0, 0, 0, 0] := rfl
  rw [hr]
  simp only [bind, Except.bind, pure, Except.pure, maxElement, maxElementLoop]
  norm_num

end Verif.Motion
