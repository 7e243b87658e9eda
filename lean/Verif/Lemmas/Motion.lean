import Verif.Props.MotionStats
import Mathlib.Tactic.LinearCombination

/-!
Lemmas on the motion metrics: what each function returns on inputs that passed validation.
-/

namespace Verif.Motion

/-! ### Specification -/

/-- The arithmetic mean; nothing for no values. -/
noncomputable def meanOf (l : List ℝ) : Option ℝ := if l = [] then none else some (l.sum / l.length)

/-- The ground truth of the `i`-th predicted sample, if it is valid: samples of a track are `1 / trackSps` apart, those of
a prediction `1 / predSps`, and the first prediction is one step after the current time. -/
def truthAt (c : Cfg) (tk : Track) (i : ℕ) : Option State :=
  match tk.states[c.history.toNat + (i + 1) * (c.trackSps / c.predSps).toNat]? with
  | some s => if s.valid then some s else none
  | none => none

/-- Euclidean distance of the `i`-th predicted sample to the ground truth. -/
noncomputable def errorAt (c : Cfg) (t : Traj) (tk : Track) (i : ℕ) : Option ℝ :=
  match truthAt c tk i, t.xs[i]?, t.ys[i]? with
  | some s, some x, some y => some (√((x - s.x) ^ 2 + (y - s.y) ^ 2))
  | _, _, _ => none

/-- The track of a predicted object. -/
def trackOf (m : Tracks) (id : ℤ) : Option Track := (m.find? fun e => e.1 == id).map (·.2)

/-- The displacement error of an object at a step, or its mean over the steps up to it. -/
noncomputable def objectError (c : Cfg) (m : Tracks) (final : Bool) (step : ℕ) (t : Traj) : Option ℝ :=
  match trackOf m t.id with
  | none => none
  | some tk => if final then errorAt c t tk step else meanOf ((List.range (step + 1)).filterMap (errorAt c t tk))

/-- The mean error of the objects of a joint prediction, if every object has one. -/
noncomputable def jointError (c : Cfg) (m : Tracks) (final : Bool) (step : ℕ) (j : Joint) : Option ℝ :=
  (j.trajs.mapM (objectError c m final step)).bind meanOf

/-- The first `k` predictions; all of them without a positive limit. -/
def considered (k : ℤ) (mm : Multi) : Multi := if k ≤ 0 then mm else mm.take k.toNat

/-- What the metric functions need from the configuration and the tracks; the validation establishes it. -/
structure Ready (c : Cfg) (m : Tracks) : Prop where
  predPos : 0 < c.predSps
  dvd : c.predSps ∣ c.trackSps
  le : c.predSps ≤ c.trackSps
  hist : 0 ≤ c.history
  size : ∀ e ∈ m, (e.2.states.length : ℤ) = c.history + c.future + 1
  ids : ∀ e ∈ m, e.2.id = e.1

/-- A trajectory of a known object with the expected number of samples. -/
structure TrajReady (c : Cfg) (m : Tracks) (t : Traj) : Prop where
  xs : (t.xs.length : ℤ) = predictionSteps c
  ys : (t.ys.length : ℤ) = predictionSteps c
  known : (trackOf m t.id).isSome

/-! ### Steps -/

theorem Ready.trackPos {c : Cfg} {m : Tracks} (h : Ready c m) : 0 < c.trackSps := lt_of_lt_of_le h.predPos h.le

theorem tdiv_rates {c : Cfg} {m : Tracks} (h : Ready c m) : c.trackSps.tdiv c.predSps = c.trackSps / c.predSps :=
  Int.tdiv_eq_ediv_of_nonneg h.trackPos.le

theorem toTrackStep_eq {c : Cfg} {m : Tracks} (h : Ready c m) (i : ℤ) :
    toTrackStep c i = (i + 1) * (c.trackSps / c.predSps) + c.history := by
  unfold toTrackStep; rw [tdiv_rates h]

theorem ratio_pos {c : Cfg} {m : Tracks} (h : Ready c m) : 0 < c.trackSps / c.predSps :=
  Int.ediv_pos_of_pos_of_dvd h.trackPos h.predPos.le h.dvd

/-- The track step of an existing prediction step lies in the future part of the track. -/
theorem toTrackStep_bounds {c : Cfg} {m : Tracks} (h : Ready c m) {i : ℤ} (h0 : 0 ≤ i) (hi : i < predictionSteps c) :
    c.history < toTrackStep c i ∧ toTrackStep c i ≤ c.history + c.future := by
  rw [toTrackStep_eq h]
  obtain ⟨r, hr⟩ := h.dvd
  have hp := h.predPos
  have hratio : c.trackSps / c.predSps = r := by rw [hr]; exact Int.mul_ediv_cancel_left r hp.ne'
  have hrpos : 0 < r := hratio ▸ ratio_pos h
  rw [hratio]
  have hfut : 0 ≤ c.future := by
    by_contra hneg
    push Not at hneg
    unfold predictionSteps at hi
    have hn : 0 ≤ (-(c.future * c.predSps)).tdiv c.trackSps := Int.tdiv_nonneg (by nlinarith) h.trackPos.le
    rw [Int.neg_tdiv] at hn
    omega
  have hsteps : predictionSteps c = c.future / r := by
    unfold predictionSteps
    rw [Int.tdiv_eq_ediv_of_nonneg (mul_nonneg hfut hp.le), hr, mul_comm c.predSps r,
      Int.mul_ediv_mul_of_pos_left _ _ hp]
  rw [hsteps] at hi
  have h1 : (i + 1) * r ≤ c.future := (Int.le_ediv_iff_mul_le hrpos).mp (by omega)
  have h2 : 0 < (i + 1) * r := by positivity
  constructor <;> omega

theorem at'_ok {α : Type} {l : List α} {i : ℤ} (h0 : 0 ≤ i) (hi : i < l.length) :
    ∃ a, at' l i = .ok a ∧ l[i.toNat]? = some a ∧ a ∈ l := by
  unfold at'
  rw [if_neg (by omega)]
  have : i.toNat < l.length := by omega
  exact ⟨l[i.toNat], by simp [this], by simp [this], List.getElem_mem _⟩

theorem at'_nat {α : Type} {l : List α} {i : ℕ} {a : α} (h : l[i]? = some a) : at' l (i : ℤ) = .ok a := by
  unfold at'
  rw [if_neg (by omega)]
  simp [h]

theorem getTrack_ok {m : Tracks} {id : ℤ} {tk : Track} (h : trackOf m id = some tk) : getTrack m id = .ok tk := by
  unfold trackOf at h
  unfold getTrack
  cases hf : m.find? fun e => e.1 == id with
  | none => rw [hf] at h; simp at h
  | some e =>
    rw [hf] at h
    simp only [Option.map_some, Option.some.injEq] at h
    simp only [h]

theorem trackOf_mem {m : Tracks} {id : ℤ} {tk : Track} (h : trackOf m id = some tk) : (id, tk) ∈ m := by
  unfold trackOf at h
  cases hf : m.find? fun e => e.1 == id with
  | none => rw [hf] at h; simp at h
  | some e =>
    rw [hf] at h
    simp only [Option.map_some, Option.some.injEq] at h
    have h1 := List.mem_of_find?_eq_some hf
    have h2 := List.find?_some hf
    simp only [beq_iff_eq] at h2
    rw [← h2, ← h]
    exact h1

/-- Reading a track at an existing prediction step. -/
theorem state_at {c : Cfg} {m : Tracks} (h : Ready c m) {tk : Track}
    (hs : (tk.states.length : ℤ) = c.history + c.future + 1) {i : ℕ} (hi : (i : ℤ) < predictionSteps c) :
    ∃ s, at' tk.states (toTrackStep c i) = .ok s ∧
      tk.states[c.history.toNat + (i + 1) * (c.trackSps / c.predSps).toNat]? = some s ∧
      truthAt c tk i = if s.valid then some s else none := by
  obtain ⟨h1, h2⟩ := toTrackStep_bounds h (Int.natCast_nonneg i) hi
  have hh := h.hist
  obtain ⟨s, ha, hb, _⟩ := at'_ok (l := tk.states) (i := toTrackStep c i) (by omega) (by omega)
  have hidx : (toTrackStep c i).toNat = c.history.toNat + (i + 1) * (c.trackSps / c.predSps).toNat := by
    have hr := (ratio_pos h).le
    have e1 : ((c.trackSps / c.predSps).toNat : ℤ) = c.trackSps / c.predSps := Int.toNat_of_nonneg hr
    have e2 : (c.history.toNat : ℤ) = c.history := Int.toNat_of_nonneg hh
    have e3 : ((c.history.toNat + (i + 1) * (c.trackSps / c.predSps).toNat : ℕ) : ℤ) = toTrackStep c i := by
      push_cast
      rw [e1, e2, toTrackStep_eq h]
      ring
    rw [← e3, Int.toNat_natCast]
  rw [hidx] at hb
  exact ⟨s, ha, hb, by unfold truthAt; rw [hb]⟩

theorem samples_at {c : Cfg} {m : Tracks} {t : Traj} (ht : TrajReady c m t) {i : ℕ} (hi : (i : ℤ) < predictionSteps c) :
    ∃ x y, at' t.xs i = .ok x ∧ at' t.ys i = .ok y ∧ t.xs[i]? = some x ∧ t.ys[i]? = some y := by
  have h1 := ht.xs
  have h2 := ht.ys
  obtain ⟨x, hx, hx', _⟩ := at'_ok (l := t.xs) (i := i) (by omega) (by omega)
  obtain ⟨y, hy, hy', _⟩ := at'_ok (l := t.ys) (i := i) (by omega) (by omega)
  rw [Int.toNat_natCast] at hx' hy'
  exact ⟨x, y, hx, hy, hx', hy'⟩

/-! ### Displacements -/

theorem displacementAt_spec {c : Cfg} {m : Tracks} (h : Ready c m) {t : Traj} (ht : TrajReady c m t) {tk : Track}
    (hs : (tk.states.length : ℤ) = c.history + c.future + 1) {i : ℕ} (hi : (i : ℤ) < predictionSteps c) :
    displacementAt c t tk i = .ok (errorAt c t tk i) := by
  obtain ⟨s, h1, _, h3⟩ := state_at h hs hi
  obtain ⟨x, y, hx, hy, hx', hy'⟩ := samples_at ht hi
  unfold displacementAt errorAt
  rw [h1, h3]
  cases hv : s.valid
  · simp [bind, Except.bind, hv, pure, Except.pure]
  · simp [bind, Except.bind, hv, pure, Except.pure, hx, hy, hx', hy', hypot]

theorem averageStep_spec {c : Cfg} {m : Tracks} (h : Ready c m) {t : Traj} (ht : TrajReady c m t) {tk : Track}
    (hs : (tk.states.length : ℤ) = c.history + c.future + 1) (acc : ℝ × ℕ) {i : ℕ} (hi : (i : ℤ) < predictionSteps c) :
    averageStep c t tk acc i = .ok (match errorAt c t tk i with
      | some e => (acc.1 + e, acc.2 + 1)
      | none => acc) := by
  obtain ⟨s, h1, _, h3⟩ := state_at h hs hi
  obtain ⟨x, y, hx, hy, hx', hy'⟩ := samples_at ht hi
  unfold averageStep errorAt
  rw [h1, h3]
  cases hv : s.valid
  · simp [bind, Except.bind, hv, pure, Except.pure]
  · simp [bind, Except.bind, hv, pure, Except.pure, hx, hy, hx', hy', hypot]

theorem averageFold {c : Cfg} {m : Tracks} (h : Ready c m) {t : Traj} (ht : TrajReady c m t) {tk : Track}
    (hs : (tk.states.length : ℤ) = c.history + c.future + 1) :
    ∀ (l : List ℕ) (acc : ℝ × ℕ), (∀ i ∈ l, (i : ℤ) < predictionSteps c) →
    l.foldlM (averageStep c t tk) acc =
      .ok (acc.1 + (l.filterMap (errorAt c t tk)).sum, acc.2 + (l.filterMap (errorAt c t tk)).length) := by
  intro l
  induction l with
  | nil => intro acc _; simp [pure, Except.pure]
  | cons i rest ih =>
    intro acc hl
    rw [List.foldlM_cons, averageStep_spec h ht hs acc (hl i (by simp))]
    simp only [bind, Except.bind]
    have := fun acc => ih acc fun i hi => hl i (List.mem_cons_of_mem _ hi)
    cases he : errorAt c t tk i with
    | none => simp only [List.filterMap_cons, he]; exact this acc
    | some e =>
      simp only [List.filterMap_cons, he, List.sum_cons, List.length_cons]
      rw [this]
      simp only [Except.ok.injEq, Prod.mk.injEq]
      exact ⟨by ring, by ring⟩

theorem averageDisplacement_spec {c : Cfg} {m : Tracks} (h : Ready c m) {t : Traj} (ht : TrajReady c m t) {tk : Track}
    (hs : (tk.states.length : ℤ) = c.history + c.future + 1) {i : ℕ} (hi : (i : ℤ) < predictionSteps c) :
    averageDisplacement c t tk i = .ok (meanOf ((List.range (i + 1)).filterMap (errorAt c t tk))) := by
  unfold averageDisplacement
  have : ((i : ℤ) + 1).toNat = i + 1 := by omega
  rw [this, averageFold h ht hs _ _ (fun k hk => by
    have := List.mem_range.mp hk
    omega)]
  simp only [bind, Except.bind, meanOf, zero_add]
  by_cases hl : (List.range (i + 1)).filterMap (errorAt c t tk) = []
  · rw [if_pos (by rw [hl]; rfl), if_pos hl]; rfl
  · rw [if_neg (by simpa using hl), if_neg hl]; rfl

/-- Displacement of one object, as the joint loop asks for it. -/
theorem objectError_spec {c : Cfg} {m : Tracks} (h : Ready c m) {t : Traj} (ht : TrajReady c m t) (final : Bool) {i : ℕ}
    (hi : (i : ℤ) < predictionSteps c) : ∃ tk, getTrack m t.id = .ok tk ∧
      (if final then displacementAt c t tk i else averageDisplacement c t tk i) = .ok (objectError c m final i t) := by
  obtain ⟨tk, htk⟩ := Option.isSome_iff_exists.mp ht.known
  have hs := h.size _ (trackOf_mem htk)
  refine ⟨tk, getTrack_ok htk, ?_⟩
  unfold objectError
  rw [htk]
  cases final
  · exact averageDisplacement_spec h ht hs hi
  · exact displacementAt_spec h ht hs hi

theorem jointLoop_spec {m : Tracks} {disp : Traj → Track → Res (Option ℝ)} {f : Traj → Option ℝ} :
    ∀ (l : List Traj) (total : ℝ) (count : ℕ), (∀ t ∈ l, ∃ tk, getTrack m t.id = .ok tk ∧ disp t tk = .ok (f t)) →
    ∃ r, jointLoop m disp l total count = .ok r ∧ r.2 ≤ count + l.length ∧
      (match l.mapM f with
        | some ds => r = (total + ds.sum, count + l.length)
        | none => r.2 ≠ count + l.length) := by
  intro l
  induction l with
  | nil => intro total count _; exact ⟨_, rfl, by simp, by simp [pure]⟩
  | cons t rest ih =>
    intro total count h
    obtain ⟨tk, h1, h2⟩ := h t (by simp)
    unfold jointLoop
    simp only [h1, h2, bind, Except.bind]
    cases hf : f t with
    | none =>
      refine ⟨_, rfl, by simp, ?_⟩
      simp [List.mapM_cons, hf]
    | some d =>
      obtain ⟨r, hr, hle, hm⟩ := ih (total + d) (count + 1) fun t ht => h t (List.mem_cons_of_mem _ ht)
      refine ⟨r, hr, by rw [List.length_cons]; omega, ?_⟩
      cases hrest : rest.mapM f with
      | none =>
        rw [hrest] at hm
        simp only [List.mapM_cons, hf, hrest, Option.bind_eq_bind, Option.bind_some, Option.bind_none, List.length_cons]
        simp only at hm
        omega
      | some ds =>
        rw [hrest] at hm
        simp only [List.mapM_cons, hf, hrest, Option.bind_eq_bind, Option.bind_some, Option.pure_def, List.length_cons,
          List.sum_cons]
        simp only at hm
        rw [hm, Prod.mk.injEq]
        exact ⟨by ring, by ring⟩

theorem mapM_option_length {α β : Type} {f : α → Option β} : ∀ {l : List α} {r : List β}, l.mapM f = some r →
    r.length = l.length := by
  intro l
  induction l with
  | nil => intro r h; simp only [List.mapM_nil, Option.pure_def, Option.some.injEq] at h; rw [← h]; rfl
  | cons a rest ih =>
    intro r h
    simp only [List.mapM_cons, Option.bind_eq_bind, Option.bind_eq_some_iff, Option.pure_def, Option.some.injEq] at h
    obtain ⟨b, _, r', hr', rfl⟩ := h
    rw [List.length_cons, List.length_cons, ih hr']

theorem jointDisplacement_spec {c : Cfg} {m : Tracks} (h : Ready c m) {j : Joint}
    (hj : ∀ t ∈ j.trajs, TrajReady c m t) (final : Bool) {i : ℕ} (hi : (i : ℤ) < predictionSteps c) :
    jointDisplacement c m j i final = .ok (jointError c m final i j) := by
  obtain ⟨r, hr, hle, hm⟩ := jointLoop_spec (m := m)
    (disp := fun t tk => if final then displacementAt c t tk i else averageDisplacement c t tk i)
    (f := objectError c m final i) j.trajs 0 0 (fun t ht => objectError_spec h (hj t ht) final hi)
  unfold jointDisplacement jointError
  rw [hr]
  simp only [bind, Except.bind]
  cases hmap : j.trajs.mapM (objectError c m final i) with
  | none =>
    rw [hmap] at hm
    simp only [zero_add] at hm
    rw [if_pos hm]
    rfl
  | some ds =>
    rw [hmap] at hm
    simp only [zero_add] at hm
    rw [hm]
    have hl := mapM_option_length hmap
    simp only [ne_eq, not_true_eq_false, if_false, Option.bind_some, meanOf]
    by_cases h0 : ds = []
    · rw [if_pos h0, if_pos (by rw [← hl, h0]; rfl)]; rfl
    · rw [if_neg h0, if_neg (by rw [← hl]; simpa using h0), hl]; rfl

/-! ### Minima over predictions -/

theorem minLoop_spec {k : ℤ} {disp : Joint → Res (Option ℝ)} {f : Joint → Option ℝ} :
    ∀ (l : Multi) (count : ℤ) (best : ℝ), (∀ j ∈ l, disp j = .ok (f j)) → 0 ≤ count → (0 < k → count < k) →
    minLoop k disp l count best =
      .ok (((considered (if k ≤ 0 then k else k - count) l).filterMap f).foldl min best) := by
  intro l
  induction l with
  | nil => intro count best _ _ _; simp [minLoop, considered]
  | cons j rest ih =>
    intro count best h h0 hk
    unfold minLoop
    rw [h j (by simp)]
    simp only [bind, Except.bind]
    have key : ∃ q, considered (if k ≤ 0 then k else k - count) (j :: rest) = j :: q ∧
        ∀ b, (if count + 1 = k then Except.ok b else minLoop k disp rest (count + 1) b) =
          Except.ok ((q.filterMap f).foldl min b) := by
      by_cases hstop : count + 1 = k
      · refine ⟨[], ?_, fun b => by rw [if_pos hstop]; rfl⟩
        rw [if_neg (by omega)]
        unfold considered
        rw [if_neg (by omega), show k - count = 1 by omega]
        rfl
      · refine ⟨considered (if k ≤ 0 then k else k - (count + 1)) rest, ?_, fun b => by
          rw [if_neg hstop, ih (count + 1) _ (fun j hj => h j (List.mem_cons_of_mem _ hj)) (by omega) (by omega)]⟩
        by_cases hk0 : k ≤ 0
        · simp [considered, hk0]
        · simp only [hk0, if_false]
          unfold considered
          rw [if_neg (by have := hk (by omega); omega), if_neg (by have := hk (by omega); omega)]
          have : (k - count).toNat = (k - (count + 1)).toNat + 1 := by have := hk (by omega); omega
          rw [this]
          rfl
    obtain ⟨q, hq, hkey⟩ := key
    rw [hq]
    cases hf : f j with
    | none => simp only [List.filterMap_cons, hf]; exact hkey best
    | some d =>
      simp only [List.filterMap_cons, hf, List.foldl_cons]
      rw [hkey]
      congr 2
      rcases lt_or_ge d best with hd | hd
      · rw [if_pos hd, min_eq_right hd.le]
      · rw [if_neg (not_lt.mpr hd), min_eq_left hd]

theorem foldl_min_spec (l : List ℝ) : ∀ b : ℝ, (l.foldl min b = b ∨ l.foldl min b ∈ l) ∧ l.foldl min b ≤ b ∧
    ∀ x ∈ l, l.foldl min b ≤ x := by
  induction l with
  | nil => intro b; simp
  | cons a rest ih =>
    intro b
    obtain ⟨h1, h2, h3⟩ := ih (min b a)
    rw [List.foldl_cons]
    refine ⟨?_, h2.trans (min_le_left _ _), ?_⟩
    · rcases h1 with h1 | h1
      · rcases min_choice b a with h | h
        · left; rw [h1, h]
        · right; rw [h1, h]; simp
      · right; exact List.mem_cons_of_mem _ h1
    · intro x hx
      rcases List.mem_cons.mp hx with rfl | hx
      · exact h2.trans (min_le_right _ _)
      · exact h3 x hx

/-- C28: the accumulated value is the minimum, over the considered predictions, of the mean error of their objects. -/
theorem minDisplacement_ok {c : Cfg} {m : Tracks} (h : Ready c m) {mm : Multi}
    (hm : ∀ j ∈ mm, ∀ t ∈ j.trajs, TrajReady c m t) (final : Bool) {i : ℕ} (hi : (i : ℤ) < predictionSteps c) :
    minDisplacement c mm m i final =
      .ok (if ((considered c.maxPred mm).filterMap (jointError c m final i)).foldl min dblMax ≠ dblMax then
        ⟨((considered c.maxPred mm).filterMap (jointError c m final i)).foldl min dblMax, 1⟩ else ⟨0, 0⟩) := by
  unfold minDisplacement
  rw [minLoop_spec (f := jointError c m final i) mm 0 dblMax
    (fun j hj => jointDisplacement_spec h (hm j hj) final hi) (le_refl _) (fun h => h)]
  have : considered (if c.maxPred ≤ 0 then c.maxPred else c.maxPred - 0) mm = considered c.maxPred mm := by
    rw [sub_zero]; split <;> rfl
  rw [this]
  simp only [bind, Except.bind]
  split
  · simp [Acc.add, Acc.zero, pure, Except.pure]
  · rfl

/-! ### Scales and matches -/

/-- The scale of the thresholds: linear between the two speeds, constant outside. -/
noncomputable def scaleFor (c : Cfg) (speed : ℝ) : ℝ :=
  c.scaleLo + (c.scaleHi - c.scaleLo) * max 0 (min 1 ((speed - c.speedLo) / (c.speedHi - c.speedLo)))

/-- The speed of an object at the current time. -/
noncomputable def initialSpeed (c : Cfg) (tk : Track) : ℝ :=
  match tk.states[c.history.toNat]? with
  | some s => √(s.vx ^ 2 + s.vy ^ 2)
  | none => 0

theorem speedScale_spec {c : Cfg} (hh : 0 ≤ c.history) (hf : 0 ≤ c.future) (hlt : c.speedLo < c.speedHi) {tk : Track}
    (hs : (tk.states.length : ℤ) = c.history + c.future + 1) :
    speedScale c tk = .ok (scaleFor c (initialSpeed c tk)) := by
  unfold speedScale
  rw [if_neg (by omega), if_neg (not_le.mpr hlt)]
  obtain ⟨s, h1, h2, _⟩ := at'_ok (l := tk.states) hh (by omega)
  rw [h1]
  simp only [bind, Except.bind, pure, Except.pure]
  have hsp : hypot s.vx s.vy = initialSpeed c tk := by
    unfold initialSpeed; rw [h2]; rfl
  rw [hsp]
  have hpos : 0 < c.speedHi - c.speedLo := by linarith
  unfold scaleFor
  split
  · rename_i h
    have : (initialSpeed c tk - c.speedLo) / (c.speedHi - c.speedLo) ≤ 0 :=
      div_nonpos_of_nonpos_of_nonneg (by linarith) hpos.le
    rw [min_eq_right (by linarith), max_eq_left this]
    simp
  · split
    · rename_i _ h
      have : 1 ≤ (initialSpeed c tk - c.speedLo) / (c.speedHi - c.speedLo) := by
        rw [le_div_iff₀ hpos]; linarith
      rw [min_eq_left this, max_eq_right zero_le_one]
      simp
    · rename_i h1 h2
      push Not at h1 h2
      have e1 : (initialSpeed c tk - c.speedLo) / (c.speedHi - c.speedLo) ≤ 1 := by
        rw [div_le_one hpos]; linarith
      have e2 : 0 ≤ (initialSpeed c tk - c.speedLo) / (c.speedHi - c.speedLo) := div_nonneg (by linarith) hpos.le
      rw [min_eq_right e1, max_eq_right e2]

theorem scaleFor_pos {c : Cfg} (h1 : 0 < c.scaleLo) (h2 : 0 < c.scaleHi) (v : ℝ) : 0 < scaleFor c v := by
  unfold scaleFor
  set a := max 0 (min 1 ((v - c.speedLo) / (c.speedHi - c.speedLo)))
  have ha0 : 0 ≤ a := le_max_left _ _
  have ha1 : a ≤ 1 := max_le zero_le_one (min_le_left _ _)
  nlinarith [mul_nonneg ha0 h2.le, mul_nonneg (sub_nonneg.mpr ha1) h1.le]

/-- The displacement of a predicted sample along and across the heading of the ground truth. -/
noncomputable def frameError (c : Cfg) (t : Traj) (tk : Track) (i : ℕ) : Option (ℝ × ℝ) :=
  match truthAt c tk i, t.xs[i]?, t.ys[i]? with
  | some s, some x, some y =>
    some ((x - s.x) * Real.cos s.heading + (y - s.y) * Real.sin s.heading,
      (y - s.y) * Real.cos s.heading - (x - s.x) * Real.sin s.heading)
  | _, _, _ => none

theorem displacement2At_spec {c : Cfg} {m : Tracks} (h : Ready c m) {t : Traj} (ht : TrajReady c m t) {tk : Track}
    (hs : (tk.states.length : ℤ) = c.history + c.future + 1) {i : ℕ} (hi : (i : ℤ) < predictionSteps c) :
    displacement2At c t tk i = .ok ((frameError c t tk i).map fun d => (d.2, d.1)) := by
  obtain ⟨s, h1, _, h3⟩ := state_at h hs hi
  obtain ⟨x, y, hx, hy, hx', hy'⟩ := samples_at ht hi
  unfold displacement2At frameError
  rw [h1, h3]
  cases hv : s.valid
  · simp [bind, Except.bind, hv, pure, Except.pure]
  · simp only [bind, Except.bind, hv, if_true, pure, Except.pure, hx, hy, hx', hy', rotate, Option.map_some,
      Real.cos_neg, Real.sin_neg, Except.ok.injEq, Option.some.injEq, Prod.mk.injEq]
    exact ⟨by ring, by ring⟩

/-- The longitudinal and lateral displacement of an object and the scale of its thresholds. -/
noncomputable def objectOffset (c : Cfg) (m : Tracks) (i : ℕ) (t : Traj) : Option ((ℝ × ℝ) × ℝ) :=
  match trackOf m t.id with
  | none => none
  | some tk => (frameError c t tk i).map fun d => (d, scaleFor c (initialSpeed c tk))

open Classical in
/-- A joint prediction matches if the displacement of every object is within the scaled thresholds; nothing is measured
if the ground truth of an object is not valid. -/
noncomputable def matchSpec (c : Cfg) (m : Tracks) (i : ℕ) (lat lon : ℝ) (j : Joint) : Option Bool :=
  (j.trajs.mapM (objectOffset c m i)).map fun ds =>
    decide (∀ d ∈ ds, |d.1.1| ≤ lon * d.2 ∧ |d.1.2| ≤ lat * d.2)

/-- Sensible parameters of the thresholds. -/
structure Scaled (c : Cfg) : Prop where
  speeds : c.speedLo < c.speedHi
  lo : 0 < c.scaleLo
  hi : 0 < c.scaleHi

theorem future_nonneg {c : Cfg} {m : Tracks} (h : Ready c m) {i : ℕ} (hi : (i : ℤ) < predictionSteps c) :
    0 ≤ c.future := by
  have := toTrackStep_bounds h (Int.natCast_nonneg i) hi
  omega

theorem matchLoop_spec {c : Cfg} {m : Tracks} (h : Ready c m) (hsc : Scaled c) {i : ℕ}
    (hi : (i : ℤ) < predictionSteps c) : ∀ (l : List Traj), (∀ t ∈ l, TrajReady c m t) →
    ∃ r, matchLoop c m i l = .ok r ∧ r.length ≤ l.length ∧
      (match l.mapM (objectOffset c m i) with
        | some ds => r = ds.map fun d => ((d.1.2, d.1.1), d.2)
        | none => r.length ≠ l.length) := by
  intro l
  induction l with
  | nil => intro _; exact ⟨[], rfl, le_refl _, by simp⟩
  | cons t rest ih =>
    intro hl
    have ht := hl t (by simp)
    obtain ⟨tk, htk⟩ := Option.isSome_iff_exists.mp ht.known
    have hs := h.size _ (trackOf_mem htk)
    obtain ⟨r, hr, hle, hm⟩ := ih fun t ht => hl t (List.mem_cons_of_mem _ ht)
    have hoff : objectOffset c m i t = (frameError c t tk i).map fun d => (d, scaleFor c (initialSpeed c tk)) := by
      unfold objectOffset; rw [htk]
    unfold matchLoop
    rw [getTrack_ok htk]
    simp only [bind, Except.bind, displacement2At_spec h ht hs hi]
    cases hd : frameError c t tk i with
    | none =>
      refine ⟨[], rfl, by simp, ?_⟩
      rw [hd] at hoff
      simp [List.mapM_cons, hoff]
    | some d =>
      rw [hd] at hoff
      simp only [Option.map_some, speedScale_spec h.hist (future_nonneg h hi) hsc.speeds hs, hr]
      refine ⟨_, rfl, by simpa using hle, ?_⟩
      cases hrest : rest.mapM (objectOffset c m i) with
      | none =>
        rw [hrest] at hm
        simp only [List.mapM_cons, hoff, hrest, Option.map_some, Option.bind_eq_bind, Option.bind_some,
          Option.bind_none, List.length_cons]
        simp only at hm
        omega
      | some ds =>
        rw [hrest] at hm
        simp only at hm
        simp only [List.mapM_cons, hoff, hrest, Option.map_some, Option.bind_eq_bind, Option.bind_some, Option.pure_def,
          hm, List.map_cons]

theorem exceeds_iff {d scale thr : ℝ} (h : 0 < scale) : exceeds d scale thr ↔ thr * scale < |d| := by
  unfold exceeds
  rw [if_neg h.ne', abs_div, abs_of_pos h, gt_iff_lt, lt_div_iff₀ h]

theorem objectOffset_scale {c : Cfg} {m : Tracks} (hsc : Scaled c) {i : ℕ} {t : Traj} {d}
    (h : objectOffset c m i t = some d) : 0 < d.2 := by
  unfold objectOffset at h
  cases htk : trackOf m t.id with
  | none => rw [htk] at h; simp at h
  | some tk =>
    rw [htk] at h
    simp only [Option.map_eq_some_iff] at h
    obtain ⟨a, _, rfl⟩ := h
    exact scaleFor_pos hsc.lo hsc.hi _

theorem mem_of_mapM {α β : Type} {f : α → Option β} : ∀ {l : List α} {r : List β}, l.mapM f = some r →
    ∀ b ∈ r, ∃ a ∈ l, f a = some b := by
  intro l
  induction l with
  | nil => intro r h b hb; simp only [List.mapM_nil, Option.pure_def, Option.some.injEq] at h; rw [← h] at hb; simp at hb
  | cons a rest ih =>
    intro r h b hb
    simp only [List.mapM_cons, Option.bind_eq_bind, Option.bind_eq_some_iff, Option.pure_def, Option.some.injEq] at h
    obtain ⟨b', hb', r', hr', rfl⟩ := h
    rcases List.mem_cons.mp hb with rfl | hb
    · exact ⟨a, by simp, hb'⟩
    · obtain ⟨x, hx, hxb⟩ := ih hr' b hb
      exact ⟨x, List.mem_cons_of_mem _ hx, hxb⟩

theorem isMatch_spec {c : Cfg} {m : Tracks} (h : Ready c m) (hsc : Scaled c) {sc : StepCfg} {i : ℕ} (hstep : sc.step = i)
    (hi : (i : ℤ) < predictionSteps c) {j : Joint} (hj : ∀ t ∈ j.trajs, TrajReady c m t) :
    isMatch c m sc j = .ok (matchSpec c m i sc.lat sc.lon j) := by
  obtain ⟨r, hr, hle, hm⟩ := matchLoop_spec h hsc hi j.trajs hj
  unfold isMatch matchSpec
  rw [hstep, hr]
  simp only [bind, Except.bind]
  cases hmap : j.trajs.mapM (objectOffset c m i) with
  | none =>
    rw [hmap] at hm
    simp only at hm
    rw [if_pos hm]
    rfl
  | some ds =>
    rw [hmap] at hm
    simp only at hm
    rw [if_neg (by rw [hm, List.length_map, mapM_option_length hmap]; exact fun h => h rfl)]
    simp only [pure, Except.pure, Option.map_some, Except.ok.injEq, Option.some.injEq]
    rw [hm, Bool.eq_iff_iff]
    simp only [List.any_map, Bool.not_eq_true', List.any_eq_false, Function.comp, decide_eq_true_eq]
    have hpos : ∀ d ∈ ds, 0 < d.2 := by
      intro d hd
      obtain ⟨t, _, ht⟩ := mem_of_mapM hmap d hd
      exact objectOffset_scale hsc ht
    constructor
    · intro hall d hd
      have := hall d hd
      rw [exceeds_iff (hpos d hd), exceeds_iff (hpos d hd)] at this
      push Not at this
      exact ⟨this.2, this.1⟩
    · intro hall d hd
      rw [exceeds_iff (hpos d hd), exceeds_iff (hpos d hd)]
      push Not
      exact ⟨(hall d hd).2, (hall d hd).1⟩

/-! ### The miss rate -/

/-- The measurement: nothing if no prediction could be measured, 0 if one matches and 1 otherwise. -/
noncomputable def missSpec (f : Joint → Option Bool) (l : Multi) : Option ℝ :=
  if l.any fun j => f j == some true then some 0
  else if l.any fun j => (f j).isSome then some 1
  else none

theorem missLoop_spec {k : ℤ} {match' : Joint → Res (Option Bool)} {f : Joint → Option Bool} :
    ∀ (l : Multi) (count : ℤ) (seen : Bool), (∀ j ∈ l, match' j = .ok (f j)) → 0 ≤ count → (0 < k → count < k) →
    missLoop k match' l count seen =
      .ok (let cs := considered (if k ≤ 0 then k else k - count) l
        if cs.any (fun j => f j == some true) then some 0
        else if seen || cs.any (fun j => (f j).isSome) then some 1 else none) := by
  intro l
  induction l with
  | nil =>
    intro count seen _ _ _
    have : considered (if k ≤ 0 then k else k - count) [] = [] := by simp [considered]
    simp only [missLoop, this, List.any_nil, Bool.or_false, Bool.false_eq_true, if_false]
  | cons j rest ih =>
    intro count seen h h0 hk
    unfold missLoop
    rw [h j (by simp)]
    simp only [bind, Except.bind]
    by_cases hstop : count + 1 = k
    · have hcons : considered (if k ≤ 0 then k else k - count) (j :: rest) = [j] := by
        rw [if_neg (by omega)]
        unfold considered
        rw [if_neg (by omega), show k - count = 1 by omega]
        rfl
      rw [hcons]
      cases hf : f j with
      | none => simp only [if_pos hstop, List.any_cons, hf, List.any_nil]; cases seen <;> simp
      | some b =>
        cases b
        · simp only [if_pos hstop, List.any_cons, hf, List.any_nil]; cases seen <;> simp
        · simp [hf]
    · have hcons : considered (if k ≤ 0 then k else k - count) (j :: rest) =
          j :: considered (if k ≤ 0 then k else k - (count + 1)) rest := by
        by_cases hk0 : k ≤ 0
        · simp [considered, hk0]
        · simp only [hk0, if_false]
          unfold considered
          rw [if_neg (by have := hk (by omega); omega), if_neg (by have := hk (by omega); omega)]
          have : (k - count).toNat = (k - (count + 1)).toNat + 1 := by have := hk (by omega); omega
          rw [this]
          rfl
      rw [hcons]
      have hrec := fun seen => ih (count + 1) seen (fun j hj => h j (List.mem_cons_of_mem _ hj)) (by omega) (by omega)
      cases hf : f j with
      | none =>
        simp only [if_neg hstop, hrec, List.any_cons, hf]
        simp
      | some b =>
        cases b
        · simp only [if_neg hstop, hrec, List.any_cons, hf]
          simp
        · simp [hf]

theorem missRate_ok {c : Cfg} {m : Tracks} (h : Ready c m) (hsc : Scaled c) {sc : StepCfg} {i : ℕ} (hstep : sc.step = i)
    (hi : (i : ℤ) < predictionSteps c) {mm : Multi} (hm : ∀ j ∈ mm, ∀ t ∈ j.trajs, TrajReady c m t) :
    missRate c m sc mm = .ok (match missSpec (matchSpec c m i sc.lat sc.lon) (considered c.maxPred mm) with
      | some v => ⟨v, 1⟩
      | none => ⟨0, 0⟩) := by
  unfold missRate
  rw [missLoop_spec (f := matchSpec c m i sc.lat sc.lon) mm 0 false
    (fun j hj => isMatch_spec h hsc hstep hi (hm j hj)) (le_refl _) (fun h => h)]
  have : considered (if c.maxPred ≤ 0 then c.maxPred else c.maxPred - 0) mm = considered c.maxPred mm := by
    rw [sub_zero]; split <;> rfl
  simp only [this, bind, Except.bind, Bool.false_or]
  unfold missSpec
  generalize (if (considered c.maxPred mm).any fun j => matchSpec c m i sc.lat sc.lon j == some true then some (0 : ℝ)
    else if (considered c.maxPred mm).any fun j => (matchSpec c m i sc.lat sc.lon j).isSome then some 1 else none) = o
  cases o with
  | none => rfl
  | some v => simp [Acc.add, Acc.zero, pure, Except.pure]

end Verif.Motion
