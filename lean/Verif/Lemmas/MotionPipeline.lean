import Verif.Lemmas.Motion

/-!
Lemmas on the motion metrics: overlaps, buckets of trajectory types and the loops over steps and predictions.
-/

namespace Verif.Motion

/-! ### The most likely prediction -/

theorem maxElementLoop_spec (l : List ℝ) : ∀ (full : List ℝ) (i best : ℕ) (v : ℝ), full.drop i = l →
    full[best]? = some v → best < i → (∀ k x, k < i → full[k]? = some x → x ≤ v ∧ (k < best → x < v)) →
    ∃ w, full[maxElementLoop l i best v]? = some w ∧
      ∀ k x, full[k]? = some x → x ≤ w ∧ (k < maxElementLoop l i best v → x < w) := by
  induction l with
  | nil =>
    intro full i best v hd hb _ h
    refine ⟨v, hb, fun k x hk => h k x ?_ hk⟩
    have hl := List.drop_eq_nil_iff.mp hd
    have := (List.getElem?_eq_some_iff.mp hk).1
    omega
  | cons a rest ih =>
    intro full i best v hd hb hlt h
    have ha : full[i]? = some a := by
      have : (full.drop i)[0]? = some a := by rw [hd]; rfl
      rwa [List.getElem?_drop, add_zero] at this
    have hd' : full.drop (i + 1) = rest := by
      have : (full.drop i).drop 1 = rest := by rw [hd]; rfl
      rwa [List.drop_drop] at this
    unfold maxElementLoop
    by_cases hv : v < a
    · rw [if_pos hv]
      refine ih full (i + 1) i a hd' ha (by omega) ?_
      intro k x hk hx
      rcases Nat.lt_succ_iff_lt_or_eq.mp hk with hk | hk
      · have := (h k x hk hx).1
        exact ⟨by linarith, fun _ => by linarith⟩
      · rw [hk, ha] at hx
        simp only [Option.some.injEq] at hx
        exact ⟨hx ▸ le_refl _, by omega⟩
    · rw [if_neg hv]
      refine ih full (i + 1) best v hd' hb (by omega) ?_
      intro k x hk hx
      rcases Nat.lt_succ_iff_lt_or_eq.mp hk with hk | hk
      · exact h k x hk hx
      · rw [hk, ha] at hx
        simp only [Option.some.injEq] at hx
        exact ⟨hx ▸ not_lt.mp hv, by omega⟩

theorem maxElement_spec {l : List ℝ} (h : l ≠ []) : ∃ w, l[maxElement l]? = some w ∧
    ∀ k x, l[k]? = some x → x ≤ w ∧ (k < maxElement l → x < w) := by
  cases l with
  | nil => exact absurd rfl h
  | cons a rest =>
    refine maxElementLoop_spec rest (a :: rest) 1 0 a rfl rfl (by omega) ?_
    intro k x hk hx
    have : k = 0 := by omega
    subst this
    simp only [List.getElem?_cons_zero, Option.some.injEq] at hx
    exact ⟨hx ▸ le_refl _, by omega⟩

/-- Among the first `k` predictions the `i`-th is the first one with the greatest confidence. -/
def MostLikely (k : ℤ) (mm : Multi) (i : ℕ) (j : Joint) : Prop :=
  mm[i]? = some j ∧ (i : ℤ) < k ∧
    ∀ (i' : ℕ) (j' : Joint), mm[i']? = some j' → (i' : ℤ) < k → j'.conf ≤ j.conf ∧ (i' < i → j'.conf < j.conf)

theorem confSum_nonneg {mm : Multi} (h : ∀ j ∈ mm, 0 ≤ j.conf) : 0 ≤ confSum mm := by
  unfold confSum
  exact List.sum_nonneg (by simpa using h)

theorem le_confSum {mm : Multi} (h : ∀ j ∈ mm, 0 ≤ j.conf) {j : Joint} (hj : j ∈ mm) : j.conf ≤ confSum mm := by
  unfold confSum
  exact List.single_le_sum (by simpa using h) _ (List.mem_map_of_mem hj)

theorem normalized_mono {mm : Multi} (h : ∀ j ∈ mm, 0 ≤ j.conf) {i i' : ℕ} {j j' : Joint} (hj : mm[i]? = some j)
    (hj' : mm[i']? = some j') : ∃ v v', (normalizedConfidences mm)[i]? = some v ∧
      (normalizedConfidences mm)[i']? = some v' ∧ 0 ≤ v ∧ (v ≤ v' → j.conf ≤ j'.conf) ∧ (v < v' → j.conf < j'.conf) := by
  unfold normalizedConfidences
  refine ⟨_, _, by rw [List.getElem?_map, hj]; rfl, by rw [List.getElem?_map, hj']; rfl, ?_, ?_, ?_⟩
  all_goals
    have hm := List.mem_of_getElem? hj
    have hm' := List.mem_of_getElem? hj'
  · split
    · positivity
    · exact div_nonneg (h j hm) (confSum_nonneg h)
  · split
    · rename_i h0
      intro _
      have := le_confSum h hm
      have := h j' hm'
      linarith
    · rename_i h0
      have hp : 0 < confSum mm := lt_of_le_of_ne (confSum_nonneg h) (Ne.symm h0)
      exact fun hle => (div_le_div_iff_of_pos_right hp).mp hle
  · split
    · exact fun hlt => absurd hlt (lt_irrefl _)
    · rename_i h0
      have hp : 0 < confSum mm := lt_of_le_of_ne (confSum_nonneg h) (Ne.symm h0)
      exact fun hlt => (div_lt_div_iff_of_pos_right hp).mp hlt

theorem likelyIndex_spec {c : Cfg} {mm : Multi} (hk : 0 < c.maxPred) (hne : mm ≠ []) (h : ∀ j ∈ mm, 0 ≤ j.conf) :
    ∃ i j, likelyIndex c mm = .ok i ∧ MostLikely c.maxPred mm i j := by
  have hlen : (normalizedConfidences mm).length = mm.length := by simp [normalizedConfidences]
  set K := c.maxPred.toNat with hK
  have hKc : (K : ℤ) = c.maxPred := Int.toNat_of_nonneg hk.le
  set l := (normalizedConfidences mm).take K ++ List.replicate (K - (normalizedConfidences mm).length) 0 with hl
  have hok : likelyIndex c mm = .ok (maxElement l) := by
    unfold likelyIndex resize
    rw [if_neg (by omega)]
    rfl
  have hmm : 0 < mm.length := List.length_pos_iff.mpr hne
  have hin : ∀ i, i < K → i < mm.length → l[i]? = (normalizedConfidences mm)[i]? := by
    intro i hi hi'
    rw [hl, List.getElem?_append_left (by rw [List.length_take]; omega), List.getElem?_take, if_pos hi]
  have hout : ∀ i v, mm.length ≤ i → l[i]? = some v → v = 0 := by
    intro i v hi hv
    rw [hl, List.getElem?_append_right (by rw [List.length_take]; omega)] at hv
    exact List.eq_of_mem_replicate (List.mem_of_getElem? hv)
  have hllen : ∀ i v, l[i]? = some v → i < K := by
    intro i v hv
    have := (List.getElem?_eq_some_iff.mp hv).1
    rw [hl, List.length_append, List.length_take, List.length_replicate] at this
    omega
  have hlne : l ≠ [] := by
    intro h0
    have : l[0]? = (normalizedConfidences mm)[0]? := hin 0 (by omega) hmm
    rw [h0] at this
    have h2 := List.getElem?_eq_none_iff.mp this.symm
    omega
  obtain ⟨w, hw, hmax⟩ := maxElement_spec hlne
  have hiK := hllen _ _ hw
  have hi : maxElement l < mm.length := by
    by_contra hge
    push Not at hge
    have hw0 := hout _ _ hge hw
    obtain ⟨v, _, hv, _, hv0, _⟩ := normalized_mono h (List.getElem?_eq_getElem hmm) (List.getElem?_eq_getElem hmm)
    rw [← hin 0 (by omega) hmm] at hv
    have := (hmax 0 v hv).2 (by omega)
    linarith
  refine ⟨maxElement l, mm[maxElement l], hok, List.getElem?_eq_getElem hi, by omega, ?_⟩
  intro i' j' hj' hi'
  have hl' := (List.getElem?_eq_some_iff.mp hj').1
  obtain ⟨v, v', hv, hv', _, h1, h2⟩ := normalized_mono h hj' (List.getElem?_eq_getElem hi)
  rw [← hin _ hiK hi, hw] at hv'
  simp only [Option.some.injEq] at hv'
  rw [← hin i' (by omega) hl'] at hv
  obtain ⟨h3, h4⟩ := hmax i' v hv
  exact ⟨h1 (hv' ▸ h3), fun hlt => h2 (hv' ▸ h4 hlt)⟩

/-! ### Overlaps -/

/-- Direction of travel between two samples. -/
noncomputable def angleOf (t : Traj) (i j : ℕ) : Option ℝ :=
  match t.xs[i]?, t.ys[i]?, t.xs[j]?, t.ys[j]? with
  | some xi, some yi, some xj, some yj => some (Complex.arg ⟨xi - xj, yi - yj⟩)
  | _, _, _, _ => none

/-- The heading of a predicted sample: the direction of travel to the next sample for the first, from the previous one for
the last, and the circular mean of the two for the others. -/
noncomputable def headingAt (t : Traj) (k : ℕ) : Option ℝ :=
  if k = 0 then angleOf t 1 0
  else if k + 1 = t.xs.length then angleOf t k (k - 1)
  else match angleOf t (k + 1) k, angleOf t k (k - 1) with
    | some a, some b => some (Complex.arg ⟨Real.cos a + Real.cos b, Real.sin a + Real.sin b⟩)
    | _, _ => none

/-- The box of a predicted sample: it has the dimensions of the ground truth at that time. -/
noncomputable def boxAt (c : Cfg) (t : Traj) (tk : Track) (k : ℕ) : Option Box :=
  match t.xs[k]?, t.ys[k]?, headingAt t k, tk.states[c.history.toNat + (k + 1) * (c.trackSps / c.predSps).toNat]? with
  | some x, some y, some h, some s => some ⟨x, y, h, s.length, s.width⟩
  | _, _, _, _ => none

theorem direction_spec {t : Traj} {n : ℤ} (hx : (t.xs.length : ℤ) = n) (hy : (t.ys.length : ℤ) = n) {i j : ℕ}
    (hi : (i : ℤ) < n) (hj : (j : ℤ) < n) : ∃ a, direction t i j = .ok a ∧ angleOf t i j = some a := by
  obtain ⟨a, h1, h1', _⟩ := at'_ok (l := t.xs) (i := i) (by omega) (by omega)
  obtain ⟨b, h2, h2', _⟩ := at'_ok (l := t.ys) (i := i) (by omega) (by omega)
  obtain ⟨d, h3, h3', _⟩ := at'_ok (l := t.xs) (i := j) (by omega) (by omega)
  obtain ⟨e, h4, h4', _⟩ := at'_ok (l := t.ys) (i := j) (by omega) (by omega)
  rw [Int.toNat_natCast] at h1' h2' h3' h4'
  refine ⟨Complex.arg ⟨a - d, b - e⟩, ?_, ?_⟩
  · unfold direction; rw [h1, h2, h3, h4]; rfl
  · unfold angleOf; rw [h1', h2', h3', h4']

theorem predictedHeading_spec {t : Traj} {n : ℤ} (hx : (t.xs.length : ℤ) = n) (hy : (t.ys.length : ℤ) = n) (h2 : 2 ≤ n)
    {k : ℕ} (hk : (k : ℤ) < n) : ∃ a, predictedHeading t k = .ok a ∧ headingAt t k = some a := by
  unfold predictedHeading headingAt
  by_cases h0 : k = 0
  · rw [if_pos (by exact_mod_cast h0), if_pos h0]
    exact direction_spec (i := 1) (j := 0) hx hy (by omega) (by omega)
  · rw [if_neg (by exact_mod_cast h0), if_neg h0]
    have hpred : ((k : ℤ) - 1) = ((k - 1 : ℕ) : ℤ) := by omega
    obtain ⟨b, hb, hb'⟩ := direction_spec (t := t) (i := k) (j := k - 1) hx hy hk (by omega)
    rw [← hpred] at hb
    by_cases hl : k + 1 = t.xs.length
    · rw [if_pos (by omega), if_pos hl]
      exact ⟨b, hb, hb'⟩
    · rw [if_neg (by omega), if_neg hl]
      obtain ⟨a, ha, ha'⟩ := direction_spec (t := t) (i := k + 1) (j := k) hx hy (by push_cast; omega) hk
      push_cast at ha
      rw [ha, hb, ha', hb']
      exact ⟨_, rfl, rfl⟩

theorem predictionBox_spec {c : Cfg} {m : Tracks} (h : Ready c m) {t : Traj} (ht : TrajReady c m t) {tk : Track}
    (hs : (tk.states.length : ℤ) = c.history + c.future + 1) (h2 : 2 ≤ predictionSteps c) {k : ℕ}
    (hk : (k : ℤ) < predictionSteps c) :
    ∃ b, predictionBox c t k tk = .ok (some b) ∧ boxAt c t tk k = some b := by
  obtain ⟨s, h1, h1', _⟩ := state_at h hs hk
  obtain ⟨x, y, hx, hy, hx', hy'⟩ := samples_at ht hk
  obtain ⟨a, ha, ha'⟩ := predictedHeading_spec ht.xs ht.ys h2 hk
  refine ⟨⟨x, y, a, s.length, s.width⟩, ?_, ?_⟩
  · unfold predictionBox
    rw [hx, hy, ha, h1]
    have hl := ht.xs
    simp only [bind, Except.bind]
    rw [if_neg (by omega)]
    rfl
  · unfold boxAt
    rw [hx', hy', ha', h1']

theorem anyM_ok {α : Type} {f : α → Res Bool} {g : α → Bool} : ∀ (l : List α), (∀ a ∈ l, f a = .ok (g a)) →
    l.anyM f = .ok (l.any g) := by
  intro l
  induction l with
  | nil => intro _; rfl
  | cons a rest ih =>
    intro h
    rw [List.anyM, h a (by simp)]
    simp only [bind, Except.bind, List.any_cons]
    cases g a
    · simpa using ih fun a ha => h a (List.mem_cons_of_mem _ ha)
    · rfl

theorem mapM_ok {α β : Type} {f : α → Res β} {g : α → β} : ∀ (l : List α), (∀ a ∈ l, f a = .ok (g a)) →
    l.mapM f = .ok (l.map g) := by
  intro l
  induction l with
  | nil => intro _; rfl
  | cons a rest ih =>
    intro h
    rw [List.mapM_cons, h a (by simp), ih fun a ha => h a (List.mem_cons_of_mem _ ha)]
    rfl

/-- A track is valid at the time of the prediction. -/
def validNow (c : Cfg) (tk : Track) : Bool :=
  match tk.states[c.history.toNat]? with
  | some s => s.valid
  | none => false

/-- Every track of the scenario has all its states. -/
def FullTracks (c : Cfg) (sc : Scenario) : Prop := ∀ tk ∈ sc.tracks, (tk.states.length : ℤ) = c.history + c.future + 1

theorem testedTracks_spec {c : Cfg} {sc : Scenario} (hh : 0 ≤ c.history) (hf : 0 ≤ c.future) (hfull : FullTracks c sc) :
    testedTracks c sc = .ok (sc.tracks.filter (validNow c)) := by
  unfold testedTracks
  rw [mapM_ok (g := fun tk => (tk, validNow c tk)) sc.tracks]
  · simp only [bind, Except.bind, pure, Except.pure, Except.ok.injEq]
    clear hfull
    generalize sc.tracks = l
    induction l with
    | nil => rfl
    | cons a rest ih => cases hv : validNow c a <;> simp_all
  · intro tk htk
    have := hfull tk htk
    obtain ⟨s, h1, h2, _⟩ := at'_ok (l := tk.states) hh (by omega)
    rw [h1]
    simp only [bind, Except.bind, pure, Except.pure, validNow, h2]

/-- The predicted object overlaps the ground truth of some other object, valid at the time of the prediction and at that
step, at some step up to `step`. -/
def TrajOverlaps (overlaps : Box → Box → Bool) (c : Cfg) (m : Tracks) (sc : Scenario) (step : ℕ) (t : Traj) : Prop :=
  ∃ own b k other s, trackOf m t.id = some own ∧ k ≤ step ∧ boxAt c t own k = some b ∧
    other ∈ sc.tracks ∧ other.id ≠ t.id ∧ validNow c other = true ∧ truthAt c other k = some s ∧
    overlaps b ⟨s.x, s.y, s.heading, s.length, s.width⟩ = true

open Classical in
theorem overlapsStep_spec {c : Cfg} {m : Tracks} (h : Ready c m) {sc : Scenario} (hfull : FullTracks c sc)
    (h2 : 2 ≤ predictionSteps c) {t : Traj} (ht : TrajReady c m t) (overlaps : Box → Box → Bool) {k : ℕ}
    (hk : (k : ℤ) < predictionSteps c) :
    overlapsStep overlaps c m (sc.tracks.filter (validNow c)) t k = .ok (decide (∃ own b other s,
      trackOf m t.id = some own ∧ boxAt c t own k = some b ∧
      other ∈ sc.tracks ∧ other.id ≠ t.id ∧ validNow c other = true ∧ truthAt c other k = some s ∧
      overlaps b ⟨s.x, s.y, s.heading, s.length, s.width⟩ = true)) := by
  obtain ⟨tk, htk⟩ := Option.isSome_iff_exists.mp ht.known
  have hmem := trackOf_mem htk
  obtain ⟨b, hb, hb'⟩ := predictionBox_spec h ht (h.size _ hmem) h2 hk
  have hid : tk.id = t.id := h.ids _ hmem
  unfold overlapsStep
  rw [getTrack_ok htk]
  simp only [bind, Except.bind, hb]
  rw [anyM_ok (g := fun o => decide (o.id ≠ t.id ∧ ∃ s, truthAt c o k = some s ∧
    overlaps b ⟨s.x, s.y, s.heading, s.length, s.width⟩ = true))]
  · rw [Except.ok.injEq, Bool.eq_iff_iff, List.any_eq_true, decide_eq_true_eq]
    constructor
    · rintro ⟨o, ho, hd⟩
      obtain ⟨h3, s, h4, h5⟩ := of_decide_eq_true hd
      rw [List.mem_filter] at ho
      exact ⟨tk, b, o, s, htk, hb', ho.1, h3, ho.2, h4, h5⟩
    · rintro ⟨own, b', o, s, h3, h4, h5, h6, h7, h8, h9⟩
      rw [htk, Option.some.injEq] at h3
      subst h3
      rw [hb', Option.some.injEq] at h4
      subst h4
      exact ⟨o, List.mem_filter.mpr ⟨h5, h7⟩, decide_eq_true ⟨h6, s, h8, h9⟩⟩
  · intro o ho
    have ho' := hfull o (List.mem_filter.mp ho).1
    obtain ⟨s, hs1, _, hs2⟩ := state_at h ho' hk
    unfold overlapsTrack
    by_cases hoid : o.id = t.id
    · rw [if_pos (by rw [hoid, hid])]
      simp [hoid]
    · rw [if_neg (by rw [hid]; exact hoid), hs1, hs2]
      simp only [bind, Except.bind]
      cases hv : s.valid
      · simp [pure, Except.pure]
      · simp [polygonsOverlap, stateBox, hoid]

open Classical in
/-- C29: the overlap decision. -/
theorem hasOverlap_ok {c : Cfg} {m : Tracks} (h : Ready c m) {sc : Scenario} (hfull : FullTracks c sc)
    (h2 : 2 ≤ predictionSteps c) (hk : 0 < c.maxPred) {mm : Multi} (hne : mm ≠ []) (hc : ∀ j ∈ mm, 0 ≤ j.conf)
    (hm : ∀ j ∈ mm, ∀ t ∈ j.trajs, TrajReady c m t) (overlaps : Box → Box → Bool) {step : ℕ}
    (hi : (step : ℤ) < predictionSteps c) :
    ∃ i j, MostLikely c.maxPred mm i j ∧
      hasOverlap overlaps c step mm m sc = .ok (decide (∃ t ∈ j.trajs, TrajOverlaps overlaps c m sc step t)) := by
  obtain ⟨i, j, h1, h3⟩ := likelyIndex_spec hk hne hc
  refine ⟨i, j, h3, ?_⟩
  unfold hasOverlap
  rw [testedTracks_spec h.hist (future_nonneg h hi) hfull, h1]
  have hat : at' mm (i : ℤ) = .ok j := at'_nat h3.1
  simp only [bind, Except.bind, hat]
  have hj : j ∈ mm := List.mem_of_getElem? h3.1
  have hn : ((step : ℤ) + 1).toNat = step + 1 := by omega
  rw [hn, anyM_ok (g := fun t => decide (TrajOverlaps overlaps c m sc step t))]
  · rw [Except.ok.injEq, Bool.eq_iff_iff, List.any_eq_true, decide_eq_true_eq]
    exact ⟨fun ⟨t, ht, hd⟩ => ⟨t, ht, of_decide_eq_true hd⟩, fun ⟨t, ht, hd⟩ => ⟨t, ht, decide_eq_true hd⟩⟩
  · intro t ht
    rw [anyM_ok _ fun k hkm => overlapsStep_spec h hfull h2 (hm j hj t ht) overlaps (k := k) (by
      have := List.mem_range.mp hkm
      omega)]
    rw [Except.ok.injEq, Bool.eq_iff_iff, List.any_eq_true, decide_eq_true_eq]
    constructor
    · rintro ⟨k, hk, hd⟩
      obtain ⟨own, b, o, s, q1, q2, q3⟩ := of_decide_eq_true hd
      exact ⟨own, b, k, o, s, q1, by have := List.mem_range.mp hk; omega, q2, q3⟩
    · rintro ⟨own, b, k, o, s, q1, q0, q2, q3⟩
      exact ⟨k, List.mem_range.mpr (by omega), decide_eq_true ⟨own, b, o, s, q1, q2, q3⟩⟩

/-! ### Buckets -/

/-- The type of a track: from the state at the prediction time to the last valid state after it. -/
noncomputable def trackType (c : Cfg) (tk : Track) : Option TrajType :=
  match lastValid tk.states c.history, tk.states[c.history.toNat]? with
  | some i, some s => if s.valid then (tk.states[i]?).map (classify s) else none
  | _, _ => none

theorem lastValid_lt {states : List State} {step : ℤ} {i : ℕ} (h : lastValid states step = some i) :
    i < states.length := by
  have := List.mem_of_find?_eq_some h
  simpa using this

theorem classifyTrack_spec {c : Cfg} (hh : 0 ≤ c.history) (hf : 0 ≤ c.future) {tk : Track}
    (hs : (tk.states.length : ℤ) = c.history + c.future + 1) :
    classifyTrack c.history tk = .ok (trackType c tk) := by
  unfold classifyTrack trackType
  obtain ⟨s, h1, h2, _⟩ := at'_ok (l := tk.states) hh (by omega)
  cases hl : lastValid tk.states c.history with
  | none => rfl
  | some i =>
    simp only [h1, h2, bind, Except.bind]
    cases hv : s.valid
    · simp [pure, Except.pure]
    · have hi := lastValid_lt hl
      rw [at'_nat (List.getElem?_eq_getElem hi)]
      simp [pure, Except.pure, hi]

/-- The trajectory types of the objects that have one. -/
noncomputable def typesOf (c : Cfg) (m : Tracks) (l : List Traj) : List TrajType :=
  l.filterMap fun t => (trackOf m t.id).bind (trackType c)

theorem typeLoop_spec {c : Cfg} {m : Tracks} (h : Ready c m) (hf : 0 ≤ c.future) :
    ∀ (l : List Traj) (st : TrajType × Bool), (∀ t ∈ l, TrajReady c m t) →
    typeLoop c m l st = .ok ((typesOf c m l).foldl (fun ty ty' => if ty'.priority > ty.priority then ty' else ty) st.1,
      st.2 || !(typesOf c m l).isEmpty) := by
  intro l
  induction l with
  | nil => intro st _; obtain ⟨a, b⟩ := st; simp [typeLoop, typesOf]
  | cons t rest ih =>
    intro st hl
    have ht := hl t (by simp)
    obtain ⟨tk, htk⟩ := Option.isSome_iff_exists.mp ht.known
    unfold typeLoop
    rw [getTrack_ok htk]
    simp only [bind, Except.bind, classifyTrack_spec h.hist hf (h.size _ (trackOf_mem htk))]
    have hrec := fun st => ih st fun t ht => hl t (List.mem_cons_of_mem _ ht)
    cases hty : trackType c tk with
    | none =>
      have : typesOf c m (t :: rest) = typesOf c m rest := by simp [typesOf, htk, hty]
      rw [this]
      exact hrec st
    | some ty =>
      have : typesOf c m (t :: rest) = ty :: typesOf c m rest := by simp [typesOf, htk, hty]
      rw [this]
      simp only [hrec, List.foldl_cons, List.isEmpty_cons, Bool.not_false, Bool.or_true, Bool.true_or]

theorem foldl_priority_spec {α : Type} (pr : α → ℕ) (l : List α) : ∀ a : α,
    (l.foldl (fun x y => if pr y > pr x then y else x) a = a ∨ l.foldl (fun x y => if pr y > pr x then y else x) a ∈ l) ∧
    pr a ≤ pr (l.foldl (fun x y => if pr y > pr x then y else x) a) ∧
    ∀ b ∈ l, pr b ≤ pr (l.foldl (fun x y => if pr y > pr x then y else x) a) := by
  induction l with
  | nil => intro a; simp
  | cons y rest ih =>
    intro a
    rw [List.foldl_cons]
    by_cases h : pr y > pr a
    · simp only [h, if_true]
      obtain ⟨h1, h2, h3⟩ := ih y
      refine ⟨Or.inr ?_, h.le.trans h2, ?_⟩
      · rcases h1 with h1 | h1
        · rw [h1]; simp
        · exact List.mem_cons_of_mem _ h1
      · intro b hb
        rcases List.mem_cons.mp hb with rfl | hb
        · exact h2
        · exact h3 b hb
    · simp only [h, if_false]
      obtain ⟨h1, h2, h3⟩ := ih a
      refine ⟨h1.imp id (List.mem_cons_of_mem _), h2, ?_⟩
      intro b hb
      rcases List.mem_cons.mp hb with rfl | hb
      · exact (not_lt.mp h).trans h2
      · exact h3 b hb

/-- The bucket of a prediction: the type of greatest priority among its objects, right U-turns counting as right turns. -/
def IsBucket (types : List TrajType) (ty : TrajType) : Prop :=
  ∃ t ∈ types, (∀ t' ∈ types, t'.priority ≤ t.priority) ∧ ty = if t = .rightUTurn then .rightTurn else t

open Classical in
theorem bucketStats_spec {c : Cfg} {m : Tracks} (h : Ready c m) (hsc : Scaled c) {sc : StepCfg} {i : ℕ}
    (hstep : sc.step = i) (hi : (i : ℤ) < predictionSteps c) (hk : 0 ≤ c.maxPred) {mm : Multi}
    (hm : ∀ j ∈ mm, ∀ t ∈ j.trajs, TrajReady c m t) (soft : Bool) :
    ∃ order, order.Perm (mm.take c.maxPred.toNat) ∧ order.Pairwise (fun a b => b.conf ≤ a.conf) ∧
      bucketStats c m sc mm soft =
        .ok ⟨labelled soft (measured (matchSpec c m i sc.lat sc.lon) order) false,
          if measured (matchSpec c m i sc.lat sc.lon) order = [] then 0 else 1⟩ := by
  have htake : mm.take (min (mm.length : ℤ) c.maxPred).toNat = mm.take c.maxPred.toNat := by
    have : (min (mm.length : ℤ) c.maxPred).toNat = min mm.length c.maxPred.toNat := by omega
    rw [this, ← List.take_take, List.take_of_length_le (l := mm.take c.maxPred.toNat) (by simp)]
  have hperm := List.perm_insertionSort (fun a b : Joint => b.conf ≤ a.conf) (mm.take c.maxPred.toNat)
  haveI : Std.Total (fun a b : Joint => b.conf ≤ a.conf) := ⟨fun a b => le_total _ _⟩
  haveI : IsTrans Joint (fun a b : Joint => b.conf ≤ a.conf) := ⟨fun a b c h1 h2 => h2.trans h1⟩
  refine ⟨_, hperm, List.pairwise_insertionSort _ _, ?_⟩
  unfold bucketStats sortedPredictions
  rw [if_neg (by omega), htake]
  simp only [bind, Except.bind]
  rw [sampleLoop_eq (f := matchSpec c m i sc.lat sc.lon) soft _ false (fun j hj =>
    isMatch_spec h hsc hstep hi (hm j (List.mem_of_mem_take (hperm.subset hj))))]
  simp only [pure, Except.pure]
  congr 2
  cases measured (matchSpec c m i sc.lat sc.lon)
    ((mm.take c.maxPred.toNat).insertionSort fun a b : Joint => b.conf ≤ a.conf) <;> simp

theorem bucket_good (soft : Bool) (l : List (ℝ × Bool)) :
    PStats.Good ⟨labelled soft l false, if l = [] then 0 else 1⟩ := by
  refine ⟨?_, ?_⟩
  · simp only [labelled_tpCount]
    cases l with
    | nil => simp
    | cons a rest => simp only [reduceCtorEq, if_false]; split <;> omega
  · intro hne
    cases l with
    | nil => simp [labelled] at hne
    | cons a rest => simp

theorem mapGood_replicate : MapGood (List.replicate numTypes PStats.zero) := by
  refine ⟨Or.inr (by simp), ?_⟩
  intro b hb
  rw [List.eq_of_mem_replicate hb]
  exact PStats.good_zero

theorem mapGood_single (ty : TrajType) {s : PStats} (hs : s.Good) : MapGood (singleBucket ty s) := by
  unfold singleBucket
  refine ⟨Or.inr (by simp), ?_⟩
  intro b hb
  rcases List.mem_or_eq_of_mem_set hb with hb | rfl
  · rw [List.eq_of_mem_replicate hb]; exact PStats.good_zero
  · exact hs

/-- C27: the samples of a prediction fall into one bucket; nothing is recorded if no object of the first prediction has a
type. -/
theorem mapStats_ok {c : Cfg} {m : Tracks} (h : Ready c m) (hsc : Scaled c) {sc : StepCfg} {i : ℕ}
    (hstep : sc.step = i) (hi : (i : ℤ) < predictionSteps c) (hk : 0 ≤ c.maxPred) {mm : Multi}
    (hm : ∀ j ∈ mm, ∀ t ∈ j.trajs, TrajReady c m t) (soft : Bool) {j0 : Joint} {js : Multi} (hmm : mm = j0 :: js) :
    (typesOf c m j0.trajs = [] → mapStats c m sc mm soft = .ok (List.replicate numTypes PStats.zero)) ∧
    (typesOf c m j0.trajs ≠ [] → ∃ ty order, IsBucket (typesOf c m j0.trajs) ty ∧
      order.Perm (mm.take c.maxPred.toNat) ∧ order.Pairwise (fun a b => b.conf ≤ a.conf) ∧
      mapStats c m sc mm soft = .ok (singleBucket ty
        ⟨labelled soft (measured (matchSpec c m i sc.lat sc.lon) order) false,
          if measured (matchSpec c m i sc.lat sc.lon) order = [] then 0 else 1⟩)) := by
  have hj0 : ∀ t ∈ j0.trajs, TrajReady c m t := hm j0 (by rw [hmm]; simp)
  have htl := typeLoop_spec h (future_nonneg h hi) j0.trajs (.stationary, false) hj0
  have hdef : ∀ r, typeLoop c m j0.trajs (.stationary, false) = .ok r → j0.trajs ≠ [] →
      mapStats c m sc mm soft = if r.2 then (do
        let s ← bucketStats c m sc mm soft
        pure (singleBucket (if r.1 = .rightUTurn then .rightTurn else r.1) s))
      else pure (List.replicate numTypes PStats.zero) := by
    intro r hr hne
    rw [hmm]
    unfold mapStats
    simp only [List.isEmpty_iff, hne, if_false, hr, bind, Except.bind]
  constructor
  · intro h0
    by_cases hne : j0.trajs = []
    · rw [hmm]
      unfold mapStats
      simp [hne]
    · rw [hdef _ htl hne, h0]
      rfl
  · intro h0
    have hne : j0.trajs ≠ [] := by
      intro h1
      rw [h1] at h0
      exact h0 rfl
    obtain ⟨order, h1, h2, h3⟩ := bucketStats_spec h hsc hstep hi hk hm soft
    obtain ⟨q1, q2, q3⟩ := foldl_priority_spec TrajType.priority (typesOf c m j0.trajs) .stationary
    set top := (typesOf c m j0.trajs).foldl (fun x y => if y.priority > x.priority then y else x) .stationary with htop
    refine ⟨if top = .rightUTurn then .rightTurn else top, order, ⟨top, ?_, q3, rfl⟩, h1, h2, ?_⟩
    · rcases q1 with q1 | q1
      · obtain ⟨x, hx⟩ := List.exists_mem_of_ne_nil _ h0
        have := q3 x hx
        rw [q1] at this
        have hx0 : x = .stationary := by cases x <;> simp [TrajType.priority] at this ⊢
        rw [q1, ← hx0]
        exact hx
      · exact q1
    · rw [hdef _ htl hne]
      have : (false || !(typesOf c m j0.trajs).isEmpty) = true := by
        cases hq : typesOf c m j0.trajs with
        | nil => exact absurd hq h0
        | cons a b => rfl
      simp only [this, if_true, h3, bind, Except.bind]
      rfl

theorem mapStats_good {c : Cfg} {m : Tracks} (h : Ready c m) (hsc : Scaled c) {sc : StepCfg} {i : ℕ}
    (hstep : sc.step = i) (hi : (i : ℤ) < predictionSteps c) (hk : 0 ≤ c.maxPred) {mm : Multi}
    (hm : ∀ j ∈ mm, ∀ t ∈ j.trajs, TrajReady c m t) (soft : Bool) :
    ∃ r, mapStats c m sc mm soft = .ok r ∧ MapGood r := by
  cases hmm : mm with
  | nil => exact ⟨_, rfl, mapGood_replicate⟩
  | cons j0 js =>
    rw [← hmm]
    obtain ⟨h1, h2⟩ := mapStats_ok h hsc hstep hi hk hm soft hmm
    by_cases h0 : typesOf c m j0.trajs = []
    · exact ⟨_, h1 h0, mapGood_replicate⟩
    · obtain ⟨ty, order, _, _, _, hr⟩ := h2 h0
      exact ⟨_, hr, mapGood_single ty (bucket_good soft _)⟩

end Verif.Motion
