import Verif.Props.Motion

/-!
Property C69: the motion metrics and the world frame.
-/

namespace Verif.Motion

/-- A rigid motion of the plane: a rotation and a translation. -/
structure Motion where
  angle : ℝ
  tx : ℝ
  ty : ℝ

noncomputable def Motion.px (g : Motion) (x y : ℝ) : ℝ := x * Real.cos g.angle - y * Real.sin g.angle + g.tx

noncomputable def Motion.py (g : Motion) (x y : ℝ) : ℝ := x * Real.sin g.angle + y * Real.cos g.angle + g.ty

noncomputable def Motion.state (g : Motion) (s : State) : State :=
  ⟨g.px s.x s.y, g.py s.x s.y, s.heading + g.angle, s.vx * Real.cos g.angle - s.vy * Real.sin g.angle,
    s.vx * Real.sin g.angle + s.vy * Real.cos g.angle, s.length, s.width, s.valid⟩

noncomputable def Motion.track (g : Motion) (tk : Track) : Track := ⟨tk.id, tk.type, tk.states.map g.state⟩

noncomputable def Motion.tracks (g : Motion) (m : Tracks) : Tracks := m.map fun e => (e.1, g.track e.2)

noncomputable def Motion.traj (g : Motion) (t : Traj) : Traj :=
  ⟨t.id, List.zipWith g.px t.xs t.ys, List.zipWith g.py t.xs t.ys⟩

noncomputable def Motion.joint (g : Motion) (j : Joint) : Joint := ⟨j.conf, j.trajs.map g.traj⟩

noncomputable def Motion.multi (g : Motion) (mm : Multi) : Multi := mm.map g.joint

noncomputable def Motion.scenario (g : Motion) (s : Scenario) : Scenario := ⟨s.id, s.tracks.map g.track, s.toPredict⟩

noncomputable def Motion.box (g : Motion) (b : Box) : Box :=
  ⟨g.px b.x b.y, g.py b.x b.y, b.heading + g.angle, b.length, b.width⟩

/-- As many x as y coordinates. -/
def Paired (mm : Multi) : Prop := ∀ j ∈ mm, ∀ t ∈ j.trajs, t.xs.length = t.ys.length

theorem hypot_turn (x y a : ℝ) :
    hypot (x * Real.cos a - y * Real.sin a) (x * Real.sin a + y * Real.cos a) = hypot x y := by
  unfold hypot
  congr 1
  have := Real.sin_sq_add_cos_sq a
  linear_combination (x ^ 2 + y ^ 2) * this

theorem at'_map {α β : Type} (f : α → β) (l : List α) (i : ℤ) : at' (l.map f) i = (at' l i).map f := by
  unfold at'
  split
  · rfl
  · rw [List.getElem?_map]
    cases l[i.toNat]? <;> rfl

theorem at'_zipWith {α β γ : Type} (f : α → β → γ) {l : List α} {l' : List β} (h : l.length = l'.length) (i : ℤ) :
    at' (List.zipWith f l l') i = (do let a ← at' l i; let b ← at' l' i; pure (f a b)) := by
  unfold at'
  split
  · rfl
  · rw [List.getElem?_zipWith]
    cases h1 : l[i.toNat]? with
    | none => rfl
    | some a =>
      have : i.toNat < l'.length := by rw [← h]; exact (List.getElem?_eq_some_iff.mp h1).1
      rw [List.getElem?_eq_getElem this]
      rfl

/-- Both coordinates exist or none. -/
theorem at'_both {α β : Type} {l : List α} {l' : List β} (h : l.length = l'.length) (i : ℤ) :
    (at' l i = .error .crash ∧ at' l' i = .error .crash) ∨ ∃ a b, at' l i = .ok a ∧ at' l' i = .ok b := by
  unfold at'
  split
  · exact Or.inl ⟨rfl, rfl⟩
  · cases h1 : l[i.toNat]? with
    | none =>
      have := List.getElem?_eq_none_iff.mp h1
      rw [List.getElem?_eq_none (by omega : l'.length ≤ i.toNat)]
      exact Or.inl ⟨rfl, rfl⟩
    | some a =>
      have : i.toNat < l'.length := by rw [← h]; exact (List.getElem?_eq_some_iff.mp h1).1
      rw [List.getElem?_eq_getElem this]
      exact Or.inr ⟨a, _, rfl, rfl⟩

theorem at'_moved (g : Motion) {t : Traj} (h : t.xs.length = t.ys.length) (i : ℤ) :
    (at' t.xs i = .error .crash ∧ at' t.ys i = .error .crash ∧
      at' (g.traj t).xs i = .error .crash ∧ at' (g.traj t).ys i = .error .crash) ∨
    ∃ x y, at' t.xs i = .ok x ∧ at' t.ys i = .ok y ∧ at' (g.traj t).xs i = .ok (g.px x y) ∧
      at' (g.traj t).ys i = .ok (g.py x y) := by
  have h1 := at'_zipWith g.px h i
  have h2 := at'_zipWith g.py h i
  rcases at'_both h i with ⟨h3, h4⟩ | ⟨x, y, h3, h4⟩
  · rw [h3] at h1 h2
    exact Or.inl ⟨h3, h4, h1, h2⟩
  · rw [h3, h4] at h1 h2
    exact Or.inr ⟨x, y, h3, h4, h1, h2⟩

theorem state_moved (g : Motion) (tk : Track) (i : ℤ) :
    (at' tk.states i = .error .crash ∧ at' (g.track tk).states i = .error .crash) ∨
    ∃ s, at' tk.states i = .ok s ∧ at' (g.track tk).states i = .ok (g.state s) := by
  have h := at'_map g.state tk.states i
  have h0 : at' tk.states i = .error .crash ∨ ∃ s, at' tk.states i = .ok s := by
    unfold at'
    split
    · exact Or.inl rfl
    · cases tk.states[i.toNat]? with
      | none => exact Or.inl rfl
      | some s => exact Or.inr ⟨s, rfl⟩
  rcases h0 with h0 | ⟨s, h0⟩
  · rw [h0] at h; exact Or.inl ⟨h0, h⟩
  · rw [h0] at h; exact Or.inr ⟨s, h0, h⟩

theorem distance_moved (g : Motion) (x y : ℝ) (s : State) :
    hypot (g.px x y - (g.state s).x) (g.py x y - (g.state s).y) = hypot (x - s.x) (y - s.y) := by
  rw [← hypot_turn (x - s.x) (y - s.y) g.angle]
  simp only [Motion.px, Motion.py, Motion.state]
  congr 1 <;> ring

theorem displacementAt_moved (g : Motion) (c : Cfg) {t : Traj} (h : t.xs.length = t.ys.length) (tk : Track) (i : ℤ) :
    displacementAt c (g.traj t) (g.track tk) i = displacementAt c t tk i := by
  unfold displacementAt
  rcases state_moved g tk (toTrackStep c i) with ⟨h1, h2⟩ | ⟨s, h1, h2⟩
  · rw [h1, h2]; rfl
  · rw [h1, h2]
    simp only [bind, Except.bind]
    have hv : (g.state s).valid = s.valid := rfl
    rw [hv]
    rcases at'_moved g h i with ⟨a1, a2, a3, a4⟩ | ⟨x, y, a1, a2, a3, a4⟩
    · rw [a1, a3]
    · rw [a1, a2, a3, a4]
      simp only [distance_moved]

theorem averageStep_moved (g : Motion) (c : Cfg) {t : Traj} (h : t.xs.length = t.ys.length) (tk : Track) :
    averageStep c (g.traj t) (g.track tk) = averageStep c t tk := by
  funext acc i
  unfold averageStep
  rcases state_moved g tk (toTrackStep c i) with ⟨h1, h2⟩ | ⟨s, h1, h2⟩
  · rw [h1, h2]; rfl
  · rw [h1, h2]
    simp only [bind, Except.bind]
    have hv : (g.state s).valid = s.valid := rfl
    rw [hv]
    rcases at'_moved g h i with ⟨a1, a2, a3, a4⟩ | ⟨x, y, a1, a2, a3, a4⟩
    · rw [a1, a3]
    · rw [a1, a2, a3, a4]
      simp only [distance_moved]

theorem averageDisplacement_moved (g : Motion) (c : Cfg) {t : Traj} (h : t.xs.length = t.ys.length) (tk : Track) (i : ℤ) :
    averageDisplacement c (g.traj t) (g.track tk) i = averageDisplacement c t tk i := by
  unfold averageDisplacement
  rw [averageStep_moved g c h]

theorem displacement2At_moved (g : Motion) (c : Cfg) {t : Traj} (h : t.xs.length = t.ys.length) (tk : Track) (i : ℤ) :
    displacement2At c (g.traj t) (g.track tk) i = displacement2At c t tk i := by
  unfold displacement2At
  rcases state_moved g tk (toTrackStep c i) with ⟨h1, h2⟩ | ⟨s, h1, h2⟩
  · rw [h1, h2]; rfl
  · rw [h1, h2]
    simp only [bind, Except.bind]
    have hv : (g.state s).valid = s.valid := rfl
    rw [hv]
    rcases at'_moved g h i with ⟨a1, a2, a3, a4⟩ | ⟨x, y, a1, a2, a3, a4⟩
    · rw [a1, a3]
    · rw [a1, a2, a3, a4]
      have key : rotate (g.px x y - (g.state s).x) (g.py x y - (g.state s).y) (-(g.state s).heading) =
          rotate (x - s.x) (y - s.y) (-s.heading) := by
        simp only [rotate, Motion.px, Motion.py, Motion.state, Real.cos_neg, Real.sin_neg, Real.cos_add, Real.sin_add,
          Prod.mk.injEq]
        have := Real.sin_sq_add_cos_sq g.angle
        constructor
        · linear_combination ((x - s.x) * Real.cos s.heading + (y - s.y) * Real.sin s.heading) * this
        · linear_combination ((y - s.y) * Real.cos s.heading - (x - s.x) * Real.sin s.heading) * this
      simp only [key]

theorem getTrack_moved (g : Motion) (m : Tracks) (id : ℤ) :
    getTrack (g.tracks m) id = (getTrack m id).map g.track := by
  unfold getTrack Motion.tracks
  rw [List.find?_map]
  cases h : m.find? ((fun e : ℤ × Track => e.1 == id) ∘ fun e => (e.1, g.track e.2)) with
  | none =>
    have h' : m.find? (fun e => e.1 == id) = none := h
    rw [h']
    rfl
  | some e =>
    have h' : m.find? (fun e => e.1 == id) = some e := h
    rw [h']
    rfl

theorem jointDisplacement_moved (g : Motion) (c : Cfg) (m : Tracks) (j : Joint)
    (h : ∀ t ∈ j.trajs, t.xs.length = t.ys.length) (i : ℤ) (final : Bool) :
    jointDisplacement c (g.tracks m) (g.joint j) i final = jointDisplacement c m j i final := by
  have key : ∀ (l : List Traj) (total : ℝ) (count : ℕ), (∀ t ∈ l, t.xs.length = t.ys.length) →
      jointLoop (g.tracks m) (fun t tk => if final then displacementAt c t tk i else averageDisplacement c t tk i)
        (l.map g.traj) total count =
      jointLoop m (fun t tk => if final then displacementAt c t tk i else averageDisplacement c t tk i) l total count := by
    intro l
    induction l with
    | nil => intro _ _ _; rfl
    | cons t rest ih =>
      intro total count hl
      have ht := hl t (by simp)
      rw [List.map_cons]
      unfold jointLoop
      have hid : (g.traj t).id = t.id := rfl
      rw [hid, getTrack_moved]
      cases getTrack m t.id with
      | error e => rfl
      | ok tk =>
        simp only [Except.map, displacementAt_moved g c ht, averageDisplacement_moved g c ht]
        have := fun total count => ih total count fun t ht => hl t (List.mem_cons_of_mem _ ht)
        cases (if final then displacementAt c t tk i else averageDisplacement c t tk i) with
        | error e => rfl
        | ok d =>
          cases d with
          | none => rfl
          | some d => exact this _ _
  unfold jointDisplacement
  have hl : (g.joint j).trajs.length = j.trajs.length := by simp [Motion.joint]
  rw [hl, show (g.joint j).trajs = j.trajs.map g.traj from rfl, key j.trajs 0 0 h]

/-- C69: the minimum displacement errors do not depend on the world frame. -/
theorem minDisplacement_moved (g : Motion) (c : Cfg) (m : Tracks) {mm : Multi} (h : Paired mm) (i : ℤ) (final : Bool) :
    minDisplacement c (g.multi mm) (g.tracks m) i final = minDisplacement c mm m i final := by
  have key : ∀ (l : Multi) (count : ℤ) (best : ℝ), Paired l →
      minLoop c.maxPred (fun j => jointDisplacement c (g.tracks m) j i final) (l.map g.joint) count best =
      minLoop c.maxPred (fun j => jointDisplacement c m j i final) l count best := by
    intro l
    induction l with
    | nil => intro _ _ _; rfl
    | cons j rest ih =>
      intro count best hl
      rw [List.map_cons]
      unfold minLoop
      rw [jointDisplacement_moved g c m j (hl j (by simp))]
      have := fun count best => ih count best fun j hj => hl j (List.mem_cons_of_mem _ hj)
      simp only [this]
  unfold minDisplacement Motion.multi
  rw [key mm 0 dblMax h]

theorem speedScale_moved (g : Motion) (c : Cfg) (tk : Track) : speedScale c (g.track tk) = speedScale c tk := by
  unfold speedScale
  have hl : (g.track tk).states.length = tk.states.length := by simp [Motion.track]
  rw [hl]
  rcases state_moved g tk c.history with ⟨h1, h2⟩ | ⟨s, h1, h2⟩
  · rw [h1, h2]
  · rw [h1, h2]
    have : hypot (g.state s).vx (g.state s).vy = hypot s.vx s.vy := hypot_turn s.vx s.vy g.angle
    simp only [bind, Except.bind, this]

theorem isMatch_moved (g : Motion) (c : Cfg) (m : Tracks) (sc : StepCfg) (j : Joint)
    (h : ∀ t ∈ j.trajs, t.xs.length = t.ys.length) :
    isMatch c (g.tracks m) sc (g.joint j) = isMatch c m sc j := by
  have key : ∀ (l : List Traj), (∀ t ∈ l, t.xs.length = t.ys.length) →
      matchLoop c (g.tracks m) sc.step (l.map g.traj) = matchLoop c m sc.step l := by
    intro l
    induction l with
    | nil => intro _; rfl
    | cons t rest ih =>
      intro hl
      have ht := hl t (by simp)
      rw [List.map_cons]
      unfold matchLoop
      have hid : (g.traj t).id = t.id := rfl
      rw [hid, getTrack_moved]
      cases getTrack m t.id with
      | error e => rfl
      | ok tk =>
        simp only [Except.map, bind, Except.bind, displacement2At_moved g c ht, speedScale_moved,
          ih fun t ht => hl t (List.mem_cons_of_mem _ ht)]
  unfold isMatch
  have hl : (g.joint j).trajs.length = j.trajs.length := by simp [Motion.joint]
  rw [hl, show (g.joint j).trajs = j.trajs.map g.traj from rfl, key j.trajs h]

/-- C69: the miss rate does not depend on the world frame. -/
theorem missRate_moved (g : Motion) (c : Cfg) (m : Tracks) (sc : StepCfg) {mm : Multi} (h : Paired mm) :
    missRate c (g.tracks m) sc (g.multi mm) = missRate c m sc mm := by
  have key : ∀ (l : Multi) (count : ℤ) (seen : Bool), Paired l →
      missLoop c.maxPred (isMatch c (g.tracks m) sc) (l.map g.joint) count seen =
      missLoop c.maxPred (isMatch c m sc) l count seen := by
    intro l
    induction l with
    | nil => intro _ _ _; rfl
    | cons j rest ih =>
      intro count seen hl
      rw [List.map_cons]
      unfold missLoop
      rw [isMatch_moved g c m sc j (hl j (by simp))]
      have := fun count best => ih count best fun j hj => hl j (List.mem_cons_of_mem _ hj)
      simp only [this]
  unfold missRate Motion.multi
  rw [key mm 0 false h]

theorem classify_moved (g : Motion) (s e : State) : classify (g.state s) (g.state e) = classify s e := by
  have h1 : hypot ((g.state e).x - (g.state s).x) ((g.state e).y - (g.state s).y) = hypot (e.x - s.x) (e.y - s.y) :=
    distance_moved g e.x e.y s
  have h2 : ∀ q, hypot (g.state q).vx (g.state q).vy = hypot q.vx q.vy := fun q => hypot_turn q.vx q.vy g.angle
  have h3 : (g.state e).heading - (g.state s).heading = e.heading - s.heading := by
    simp only [Motion.state]; ring
  have h4 : rotate ((g.state e).x - (g.state s).x) ((g.state e).y - (g.state s).y) (-(g.state s).heading) =
      rotate (e.x - s.x) (e.y - s.y) (-s.heading) := by
    simp only [rotate, Motion.px, Motion.py, Motion.state, Real.cos_neg, Real.sin_neg, Real.cos_add, Real.sin_add,
      Prod.mk.injEq]
    have := Real.sin_sq_add_cos_sq g.angle
    constructor
    · linear_combination ((e.x - s.x) * Real.cos s.heading + (e.y - s.y) * Real.sin s.heading) * this
    · linear_combination ((e.y - s.y) * Real.cos s.heading - (e.x - s.x) * Real.sin s.heading) * this
  unfold classify
  simp only [h4, h3, h2, h1]

theorem lastValid_moved (g : Motion) (l : List State) (i : ℤ) : lastValid (l.map g.state) i = lastValid l i := by
  unfold lastValid
  rw [List.length_map]
  congr 1
  funext k
  rw [List.getElem?_map]
  cases l[k]? <;> rfl

/-- C69: the type of a trajectory does not depend on the world frame. -/
theorem classifyTrack_moved (g : Motion) (i : ℤ) (tk : Track) : classifyTrack i (g.track tk) = classifyTrack i tk := by
  unfold classifyTrack
  have hl : lastValid (g.track tk).states i = lastValid tk.states i := lastValid_moved g tk.states i
  rw [hl]
  cases lastValid tk.states i with
  | none => rfl
  | some k =>
    rcases state_moved g tk i with ⟨h1, h2⟩ | ⟨s, h1, h2⟩
    · simp only [h1, h2]; rfl
    · rcases state_moved g tk k with ⟨h3, h4⟩ | ⟨e, h3, h4⟩
      · simp only [h1, h2, h3, h4]; rfl
      · simp only [h1, h2, h3, h4, bind, Except.bind, classify_moved]; rfl

theorem typeLoop_moved (g : Motion) (c : Cfg) (m : Tracks) : ∀ (l : List Traj) (st : TrajType × Bool),
    typeLoop c (g.tracks m) (l.map g.traj) st = typeLoop c m l st := by
  intro l
  induction l with
  | nil => intro _; rfl
  | cons t rest ih =>
    intro st
    rw [List.map_cons]
    unfold typeLoop
    have hid : (g.traj t).id = t.id := rfl
    rw [hid, getTrack_moved]
    cases getTrack m t.id with
    | error e => rfl
    | ok tk => simp only [Except.map, bind, Except.bind, classifyTrack_moved, ih]

theorem orderedInsert_moved (g : Motion) [DecidableRel fun a b : Joint => b.conf ≤ a.conf] (a : Joint) : ∀ l : Multi,
    (l.map g.joint).orderedInsert (fun a b => b.conf ≤ a.conf) (g.joint a) =
      (l.orderedInsert (fun a b => b.conf ≤ a.conf) a).map g.joint := by
  intro l
  induction l with
  | nil => rfl
  | cons b rest ih =>
    rw [List.map_cons, List.orderedInsert_cons, List.orderedInsert_cons]
    have : ((g.joint b).conf ≤ (g.joint a).conf) ↔ b.conf ≤ a.conf := Iff.rfl
    by_cases hb : b.conf ≤ a.conf
    · rw [if_pos (this.mpr hb), if_pos hb]; rfl
    · rw [if_neg fun h => hb (this.mp h), if_neg hb, ih]; rfl

theorem sortedPredictions_moved (g : Motion) (c : Cfg) (mm : Multi) :
    sortedPredictions c (g.multi mm) = (sortedPredictions c mm).map (List.map g.joint) := by
  classical
  unfold sortedPredictions Motion.multi
  rw [List.length_map]
  split
  · rfl
  · simp only [Except.map, ← List.map_take]
    congr 1
    generalize mm.take _ = l
    induction l with
    | nil => rfl
    | cons a rest ih =>
      rw [List.map_cons, List.insertionSort_cons, List.insertionSort_cons, ih]
      exact orderedInsert_moved g a _

/-- C69: the samples of the mean average precision do not depend on the world frame. -/
theorem mapStats_moved (g : Motion) (c : Cfg) (m : Tracks) (sc : StepCfg) {mm : Multi} (h : Paired mm) (soft : Bool) :
    mapStats c (g.tracks m) sc (g.multi mm) soft = mapStats c m sc mm soft := by
  have key : ∀ (l : Multi) (found : Bool), Paired l →
      sampleLoop (isMatch c (g.tracks m) sc) soft (l.map g.joint) found = sampleLoop (isMatch c m sc) soft l found := by
    intro l
    induction l with
    | nil => intro _ _; rfl
    | cons j rest ih =>
      intro found hl
      rw [List.map_cons]
      unfold sampleLoop
      rw [isMatch_moved g c m sc j (hl j (by simp))]
      have := fun found => ih found fun j hj => hl j (List.mem_cons_of_mem _ hj)
      simp only [this]
      rfl
  have hb : bucketStats c (g.tracks m) sc (g.multi mm) soft = bucketStats c m sc mm soft := by
    unfold bucketStats
    rw [sortedPredictions_moved]
    cases ho : sortedPredictions c mm with
    | error e => rfl
    | ok order =>
      have hsub : Paired order := by
        classical
        intro j hj
        unfold sortedPredictions at ho
        split at ho
        · simp at ho
        · simp only [Except.ok.injEq] at ho
          rw [← ho] at hj
          exact h j (List.mem_of_mem_take ((List.perm_insertionSort _ _).subset hj))
      simp only [Except.map, bind, Except.bind, key order false hsub]
  cases mm with
  | nil => rfl
  | cons j0 js =>
    have hm : g.multi (j0 :: js) = g.joint j0 :: g.multi js := rfl
    rw [hm] at hb ⊢
    unfold mapStats
    simp only [List.isEmpty_map, hb, show (g.joint j0).trajs = j0.trajs.map g.traj from rfl, typeLoop_moved]

/-! ### Overlaps -/

/-- The same direction. -/
def Agree (a b : ℝ) : Prop := Real.cos a = Real.cos b ∧ Real.sin a = Real.sin b

theorem agree_turn {u v α : ℝ} (h : u ≠ 0 ∨ v ≠ 0) :
    Agree (Complex.arg ⟨u * Real.cos α - v * Real.sin α, u * Real.sin α + v * Real.cos α⟩)
      (Complex.arg ⟨u, v⟩ + α) := by
  set z : ℂ := ⟨u, v⟩ with hz
  set w : ℂ := ⟨u * Real.cos α - v * Real.sin α, u * Real.sin α + v * Real.cos α⟩ with hw
  have hz0 : z ≠ 0 := by
    intro h0
    have h1 : z.re = 0 := by rw [h0]; rfl
    have h2 : z.im = 0 := by rw [h0]; rfl
    rcases h with h | h
    · exact h h1
    · exact h h2
  have hn : ‖w‖ = ‖z‖ := by
    have h1 : ‖w‖ ^ 2 = ‖z‖ ^ 2 := by
      rw [← Complex.normSq_eq_norm_sq, ← Complex.normSq_eq_norm_sq, Complex.normSq_apply, Complex.normSq_apply]
      have := Real.sin_sq_add_cos_sq α
      simp only [hw, hz]
      linear_combination (u ^ 2 + v ^ 2) * this
    exact (sq_eq_sq₀ (norm_nonneg _) (norm_nonneg _)).mp h1
  have hzn : ‖z‖ ≠ 0 := norm_ne_zero_iff.mpr hz0
  have hw0 : w ≠ 0 := norm_ne_zero_iff.mp (hn ▸ hzn)
  constructor
  · rw [Complex.cos_arg hw0, Real.cos_add, Complex.cos_arg hz0, Complex.sin_arg, hn]
    simp only [hw, hz]
    ring
  · rw [Complex.sin_arg, Real.sin_add, Complex.cos_arg hz0, Complex.sin_arg, hn]
    simp only [hw, hz]
    ring

/-- The same box, up to the way its direction is written. -/
def SameBox (b b' : Box) : Prop :=
  b.x = b'.x ∧ b.y = b'.y ∧ Agree b.heading b'.heading ∧ b.length = b'.length ∧ b.width = b'.width

/-- Whether two boxes overlap does not depend on the frame and on the way the directions are written. -/
def FrameFree (overlaps : Box → Box → Bool) : Prop :=
  ∀ (g : Motion) (b b' q q' : Box), SameBox q (g.box b) → SameBox q' (g.box b') → overlaps q q' = overlaps b b'

/-- The object moves between any two samples and never turns straight back. -/
structure Moving (t : Traj) : Prop where
  paired : t.xs.length = t.ys.length
  two : 2 ≤ t.xs.length
  moves : ∀ (i j : ℤ) (x y x' y' : ℝ), i = j + 1 → at' t.xs i = .ok x → at' t.ys i = .ok y → at' t.xs j = .ok x' →
    at' t.ys j = .ok y' → x - x' ≠ 0 ∨ y - y' ≠ 0
  ahead : ∀ (k : ℤ) (a b : ℝ), direction t (k + 1) k = .ok a → direction t k (k - 1) = .ok b →
    Real.cos a + Real.cos b ≠ 0 ∨ Real.sin a + Real.sin b ≠ 0

/-- Both computations fail, or their results correspond. -/
def Both {α β : Type} (R : α → β → Prop) (a : Res α) (b : Res β) : Prop :=
  (a = .error .crash ∧ b = .error .crash) ∨ ∃ x y, a = .ok x ∧ b = .ok y ∧ R x y

theorem direction_moved (g : Motion) {t : Traj} (h : Moving t) (i j : ℤ) (hij : i = j + 1) :
    Both (fun a b => Agree a (b + g.angle)) (direction (g.traj t) i j) (direction t i j) := by
  unfold direction
  rcases at'_moved g h.paired i with ⟨a1, a2, a3, a4⟩ | ⟨x, y, a1, a2, a3, a4⟩
  · rw [a1, a3]; exact Or.inl ⟨rfl, rfl⟩
  · rw [a1, a2, a3, a4]
    rcases at'_moved g h.paired j with ⟨b1, b2, b3, b4⟩ | ⟨x', y', b1, b2, b3, b4⟩
    · rw [b1, b3]; exact Or.inl ⟨rfl, rfl⟩
    · rw [b1, b2, b3, b4]
      refine Or.inr ⟨_, _, rfl, rfl, ?_⟩
      have hne := h.moves i j x y x' y' hij a1 a2 b1 b2
      have := agree_turn (α := g.angle) hne
      have e1 : g.px x y - g.px x' y' = (x - x') * Real.cos g.angle - (y - y') * Real.sin g.angle := by
        unfold Motion.px; ring
      have e2 : g.py x y - g.py x' y' = (x - x') * Real.sin g.angle + (y - y') * Real.cos g.angle := by
        unfold Motion.py; ring
      rw [e1, e2]
      exact this

theorem predictedHeading_moved (g : Motion) {t : Traj} (h : Moving t) (k : ℤ) :
    Both (fun a b => Agree a (b + g.angle)) (predictedHeading (g.traj t) k) (predictedHeading t k) := by
  unfold predictedHeading
  have hl : (g.traj t).xs.length = t.xs.length := by
    simp only [Motion.traj, List.length_zipWith, h.paired, min_self]
  rw [hl]
  split
  · exact direction_moved g h 1 0 rfl
  · split
    · exact direction_moved g h k (k - 1) (by ring)
    · rcases direction_moved g h (k + 1) k rfl with ⟨h1, h2⟩ | ⟨a', a, h1, h2, ha⟩
      · rw [h1, h2]; exact Or.inl ⟨rfl, rfl⟩
      · rw [h1, h2]
        rcases direction_moved g h k (k - 1) (by ring) with ⟨h3, h4⟩ | ⟨b', b, h3, h4, hb⟩
        · rw [h3, h4]; exact Or.inl ⟨rfl, rfl⟩
        · rw [h3, h4]
          refine Or.inr ⟨_, _, rfl, rfl, ?_⟩
          have := agree_turn (α := g.angle) (h.ahead k a b h2 h4)
          unfold averageAngle
          have e1 : Real.cos a' + Real.cos b' =
              (Real.cos a + Real.cos b) * Real.cos g.angle - (Real.sin a + Real.sin b) * Real.sin g.angle := by
            rw [ha.1, hb.1, Real.cos_add, Real.cos_add]; ring
          have e2 : Real.sin a' + Real.sin b' =
              (Real.cos a + Real.cos b) * Real.sin g.angle + (Real.sin a + Real.sin b) * Real.cos g.angle := by
            rw [ha.2, hb.2, Real.sin_add, Real.sin_add]; ring
          rw [e1, e2]
          exact this

theorem predictionBox_moved (g : Motion) (c : Cfg) {t : Traj} (h : Moving t) (k : ℤ) (tk : Track) :
    Both (fun q b => ∃ q' b', q = some q' ∧ b = some b' ∧ SameBox q' (g.box b'))
      (predictionBox c (g.traj t) k (g.track tk)) (predictionBox c t k tk) := by
  unfold predictionBox
  have hl : (g.traj t).xs.length = t.xs.length := by
    simp only [Motion.traj, List.length_zipWith, h.paired, min_self]
  rw [hl]
  have hn : ¬ (t.xs.length : ℤ) < 2 := by have := h.two; omega
  simp only [if_neg hn]
  rcases at'_moved g h.paired k with ⟨a1, a2, a3, a4⟩ | ⟨x, y, a1, a2, a3, a4⟩
  · rw [a1, a3]; exact Or.inl ⟨rfl, rfl⟩
  · rw [a1, a2, a3, a4]
    rcases predictedHeading_moved g h k with ⟨h1, h2⟩ | ⟨a', a, h1, h2, ha⟩
    · rw [h1, h2]; exact Or.inl ⟨rfl, rfl⟩
    · rw [h1, h2]
      rcases state_moved g tk (toTrackStep c k) with ⟨h3, h4⟩ | ⟨s, h3, h4⟩
      · rw [h3, h4]; exact Or.inl ⟨rfl, rfl⟩
      · rw [h3, h4]
        exact Or.inr ⟨_, _, rfl, rfl, _, _, rfl, rfl, rfl, rfl, ha, rfl, rfl⟩

theorem anyM_congr_map {α β : Type} (f : α → β) {p : β → Res Bool} {q : α → Res Bool} : ∀ l : List α,
    (∀ a ∈ l, p (f a) = q a) → (l.map f).anyM p = l.anyM q := by
  intro l
  induction l with
  | nil => intro _; rfl
  | cons a rest ih =>
    intro h
    rw [List.map_cons]
    simp only [List.anyM, h a (by simp), ih fun a ha => h a (List.mem_cons_of_mem _ ha)]

theorem anyM_congr {α : Type} {p q : α → Res Bool} (l : List α) (h : ∀ a ∈ l, p a = q a) : l.anyM p = l.anyM q := by
  have := anyM_congr_map id (p := p) (q := q) l h
  rwa [List.map_id] at this

theorem overlapsStep_moved {overlaps : Box → Box → Bool} (ho : FrameFree overlaps) (g : Motion) (c : Cfg) (m : Tracks)
    (tested : List Track) {t : Traj} (h : Moving t) (k : ℕ) :
    overlapsStep overlaps c (g.tracks m) (tested.map g.track) (g.traj t) k = overlapsStep overlaps c m tested t k := by
  unfold overlapsStep
  have hid : (g.traj t).id = t.id := rfl
  rw [hid, getTrack_moved]
  cases getTrack m t.id with
  | error e => rfl
  | ok tk =>
    simp only [Except.map, bind, Except.bind]
    rcases predictionBox_moved g c h k tk with ⟨h1, h2⟩ | ⟨q, b, h1, h2, q', b', rfl, rfl, hs⟩
    · rw [h1, h2]
    · rw [h1, h2]
      refine anyM_congr_map g.track tested fun o _ => ?_
      unfold overlapsTrack
      have e1 : (g.track o).id = o.id := rfl
      have e2 : (g.track tk).id = tk.id := rfl
      rw [e1, e2]
      split
      · rfl
      · rcases state_moved g o (toTrackStep c k) with ⟨h3, h4⟩ | ⟨s, h3, h4⟩
        · rw [h3, h4]; rfl
        · rw [h3, h4]
          have hv : (g.state s).valid = s.valid := rfl
          simp only [bind, Except.bind, hv, polygonsOverlap]
          have := ho g b' (stateBox s) q' (stateBox (g.state s)) hs
            ⟨rfl, rfl, ⟨rfl, rfl⟩, rfl, rfl⟩
          rw [this]

theorem testedTracks_moved (g : Motion) (c : Cfg) (sc : Scenario) :
    testedTracks c (g.scenario sc) = (testedTracks c sc).map (List.map g.track) := by
  unfold testedTracks
  have key : ∀ l : List Track,
      (l.map g.track).mapM (fun tk => do let s ← at' tk.states c.history; pure (tk, s.valid)) =
      (l.mapM (fun tk => do let s ← at' tk.states c.history; pure (tk, s.valid)) : Res (List (Track × Bool))).map
        (List.map fun p => (g.track p.1, p.2)) := by
    intro l
    induction l with
    | nil => rfl
    | cons a rest ih =>
      rw [List.map_cons, List.mapM_cons, List.mapM_cons, ih]
      rcases state_moved g a c.history with ⟨h1, h2⟩ | ⟨s, h1, h2⟩
      · rw [h1, h2]; rfl
      · rw [h1, h2]
        cases (rest.mapM (fun tk => do let s ← at' tk.states c.history; pure (tk, s.valid)) : Res (List (Track × Bool)))
          <;> rfl
  have hs : (g.scenario sc).tracks = sc.tracks.map g.track := rfl
  rw [hs, key]
  cases (sc.tracks.mapM (fun tk => do let s ← at' tk.states c.history; pure (tk, s.valid)) : Res (List (Track × Bool)))
    with
  | error e => rfl
  | ok l =>
    simp only [Except.map, bind, Except.bind, pure, Except.pure, Except.ok.injEq]
    rw [List.filter_map, List.map_map, List.map_map]
    rfl

theorem likelyIndex_moved (g : Motion) (c : Cfg) (mm : Multi) : likelyIndex c (g.multi mm) = likelyIndex c mm := by
  have h1 : (g.multi mm).map (·.conf) = mm.map (·.conf) := by
    unfold Motion.multi
    rw [List.map_map]
    rfl
  have h2 : normalizedConfidences (g.multi mm) = normalizedConfidences mm := by
    unfold normalizedConfidences confSum
    rw [h1]
    unfold Motion.multi
    rw [List.map_map, List.length_map]
    rfl
  unfold likelyIndex
  rw [h2]

/-- C69, for predictions in which every object keeps moving: whether they overlap does not depend on the world frame.
Without that it may, see `hasOverlap_moved_violated`. -/
theorem hasOverlap_moved_partial {overlaps : Box → Box → Bool} (ho : FrameFree overlaps) (g : Motion) (c : Cfg)
    (m : Tracks) (sc : Scenario) {mm : Multi} (h : ∀ j ∈ mm, ∀ t ∈ j.trajs, Moving t) (step : ℤ) :
    hasOverlap overlaps c step (g.multi mm) (g.tracks m) (g.scenario sc) = hasOverlap overlaps c step mm m sc := by
  unfold hasOverlap
  rw [testedTracks_moved, likelyIndex_moved]
  cases testedTracks c sc with
  | error e => rfl
  | ok tested =>
    simp only [Except.map, bind, Except.bind]
    cases likelyIndex c mm with
    | error e => rfl
    | ok i =>
      simp only
      have hat : at' (g.multi mm) (i : ℤ) = (at' mm (i : ℤ)).map g.joint := at'_map g.joint mm i
      rw [hat]
      cases hj : at' mm (i : ℤ) with
      | error e => rfl
      | ok j =>
        have hmem : j ∈ mm := by
          unfold at' at hj
          split at hj
          · simp at hj
          · cases hk : mm[(i : ℤ).toNat]? with
            | none => rw [hk] at hj; simp at hj
            | some q =>
              rw [hk] at hj
              simp only [Except.ok.injEq] at hj
              exact hj ▸ List.mem_of_getElem? hk
        simp only [Except.map]
        rw [show (g.joint j).trajs = j.trajs.map g.traj from rfl]
        refine anyM_congr_map g.traj j.trajs fun t ht => anyM_congr _ fun k _ => ?_
        exact overlapsStep_moved ho g c m tested (h j hmem t ht) k

/-- C69: every statistic of a prediction in which the objects keep moving is the same in every world frame. -/
theorem stepStats_moved_partial {overlaps : Box → Box → Bool} (ho : FrameFree overlaps) (g : Motion) (c : Cfg)
    (m : Tracks) (s : Scenario) {mm : Multi} (h : ∀ j ∈ mm, ∀ t ∈ j.trajs, Moving t) (sc : StepCfg) :
    stepStats overlaps c (g.tracks m) (g.scenario s) (g.multi mm) sc = stepStats overlaps c m s mm sc := by
  have hp : Paired mm := fun j hj t ht => (h j hj t ht).paired
  unfold stepStats overlapRate
  rw [minDisplacement_moved g c m hp, minDisplacement_moved g c m hp, missRate_moved g c m sc hp,
    hasOverlap_moved_partial ho g c m s h, mapStats_moved g c m sc hp, mapStats_moved g c m sc hp]

/-! ### What goes wrong for an object that stands still -/

/-- The inside of a box. -/
def Box.inside (b : Box) (p : ℝ × ℝ) : Prop :=
  |(p.1 - b.x) * Real.cos b.heading + (p.2 - b.y) * Real.sin b.heading| < b.length / 2 ∧
    |(p.2 - b.y) * Real.cos b.heading - (p.1 - b.x) * Real.sin b.heading| < b.width / 2

open Classical in
/-- Two boxes share an inner point, that is, have an intersection of positive area. -/
noncomputable def meet (b b' : Box) : Bool := decide (∃ p, b.inside p ∧ b'.inside p)

theorem inside_moved (g : Motion) {b q : Box} (h : SameBox q (g.box b)) (x y : ℝ) :
    q.inside (g.px x y, g.py x y) ↔ b.inside (x, y) := by
  obtain ⟨h1, h2, ⟨h3, h4⟩, h5, h6⟩ := h
  unfold Box.inside
  have h7 : (g.box b).heading = b.heading + g.angle := rfl
  rw [h7, Real.cos_add] at h3
  rw [h7, Real.sin_add] at h4
  have e1 : (g.px x y - q.x) * Real.cos q.heading + (g.py x y - q.y) * Real.sin q.heading =
      (x - b.x) * Real.cos b.heading + (y - b.y) * Real.sin b.heading := by
    rw [h1, h2, h3, h4]
    simp only [Motion.box, Motion.px, Motion.py]
    have := Real.sin_sq_add_cos_sq g.angle
    linear_combination ((x - b.x) * Real.cos b.heading + (y - b.y) * Real.sin b.heading) * this
  have e2 : (g.py x y - q.y) * Real.cos q.heading - (g.px x y - q.x) * Real.sin q.heading =
      (y - b.y) * Real.cos b.heading - (x - b.x) * Real.sin b.heading := by
    rw [h1, h2, h3, h4]
    simp only [Motion.box, Motion.px, Motion.py]
    have := Real.sin_sq_add_cos_sq g.angle
    linear_combination ((y - b.y) * Real.cos b.heading - (x - b.x) * Real.sin b.heading) * this
  simp only [e1, e2, h5, h6]
  rfl

theorem Motion.surjective (g : Motion) (p : ℝ × ℝ) : ∃ x y, p = (g.px x y, g.py x y) := by
  refine ⟨(p.1 - g.tx) * Real.cos g.angle + (p.2 - g.ty) * Real.sin g.angle,
    (p.2 - g.ty) * Real.cos g.angle - (p.1 - g.tx) * Real.sin g.angle, ?_⟩
  have := Real.sin_sq_add_cos_sq g.angle
  refine Prod.ext ?_ ?_
  · simp only [Motion.px]
    linear_combination -(p.1 - g.tx) * this
  · simp only [Motion.py]
    linear_combination -(p.2 - g.ty) * this

theorem meet_frameFree : FrameFree meet := by
  classical
  intro g b b' q q' h h'
  unfold meet
  refine decide_eq_decide.mpr ⟨?_, ?_⟩
  · rintro ⟨p, h1, h2⟩
    obtain ⟨x, y, rfl⟩ := g.surjective p
    exact ⟨(x, y), (inside_moved g h x y).mp h1, (inside_moved g h' x y).mp h2⟩
  · rintro ⟨⟨x, y⟩, h1, h2⟩
    exact ⟨(g.px x y, g.py x y), (inside_moved g h x y).mpr h1, (inside_moved g h' x y).mpr h2⟩

/-- Two steps, one sample per step. -/
noncomputable def stillCfg : Cfg := ⟨1, 1, 0, 2, 1, 2, 1, 1, [], 1⟩

/-- A parked object of 4 by 2 at the origin. -/
noncomputable def parked : Track := ⟨1, .vehicle, List.replicate 3 ⟨0, 0, 0, 0, 0, 4, 2, true⟩⟩

/-- A parked object of 2 by 2 beside it, with half a unit between them. -/
noncomputable def beside : Track := ⟨2, .vehicle, List.replicate 3 ⟨0, 5 / 2, 0, 0, 0, 2, 2, true⟩⟩

noncomputable def stillScenario : Scenario := ⟨"s", [parked, beside], [0]⟩

/-- The perfect prediction of the first object. -/
noncomputable def stillPrediction : Multi := [⟨1, [⟨1, [0, 0], [0, 0]⟩]⟩]

/-- A quarter turn about the origin. -/
noncomputable def quarter : Motion := ⟨Real.pi / 2, 0, 0⟩

theorem anyM_single {α : Type} (f : α → Res Bool) (a : α) : [a].anyM f = f a := by
  simp only [List.anyM]
  cases f a with
  | error e => rfl
  | ok b => cases b <;> rfl

theorem anyM_skip {α : Type} {f : α → Res Bool} {a : α} {l : List α} (h : f a = .ok false) :
    (a :: l).anyM f = l.anyM f := by
  simp only [List.anyM, h]
  rfl

theorem still_eval (o : Box → Box → Bool) :
    hasOverlap o stillCfg 0 stillPrediction [(1, parked)] stillScenario =
      .ok (o ⟨0, 0, Complex.arg ⟨0 - 0, 0 - 0⟩, 4, 2⟩ ⟨0, 5 / 2, 0, 2, 2⟩) := by
  have h1 : hasOverlap o stillCfg 0 stillPrediction [(1, parked)] stillScenario =
      [(⟨1, [0, 0], [0, 0]⟩ : Traj)].anyM fun t => [0].anyM (overlapsStep o stillCfg [(1, parked)] [parked, beside] t) := rfl
  rw [h1, anyM_single, anyM_single]
  have h2 : overlapsStep o stillCfg [(1, parked)] [parked, beside] ⟨1, [0, 0], [0, 0]⟩ 0 =
      [parked, beside].anyM (overlapsTrack o stillCfg (some ⟨0, 0, Complex.arg ⟨0 - 0, 0 - 0⟩, 4, 2⟩) 1 0) := rfl
  rw [h2]
  refine (anyM_skip (by rfl)).trans ?_
  rw [anyM_single]
  rfl

theorem still_eval_moved (o : Box → Box → Bool) (g : Motion) :
    hasOverlap o stillCfg 0 (g.multi stillPrediction) (g.tracks [(1, parked)]) (g.scenario stillScenario) =
      .ok (o ⟨g.px 0 0, g.py 0 0, Complex.arg ⟨g.px 0 0 - g.px 0 0, g.py 0 0 - g.py 0 0⟩, 4, 2⟩
        ⟨g.px 0 (5 / 2), g.py 0 (5 / 2), 0 + g.angle, 2, 2⟩) := by
  have h1 : hasOverlap o stillCfg 0 (g.multi stillPrediction) (g.tracks [(1, parked)]) (g.scenario stillScenario) =
      [g.traj ⟨1, [0, 0], [0, 0]⟩].anyM fun t =>
        [0].anyM (overlapsStep o stillCfg (g.tracks [(1, parked)]) [g.track parked, g.track beside] t) := rfl
  rw [h1, anyM_single, anyM_single]
  have h2 : overlapsStep o stillCfg (g.tracks [(1, parked)]) [g.track parked, g.track beside]
        (g.traj ⟨1, [0, 0], [0, 0]⟩) 0 =
      [g.track parked, g.track beside].anyM (overlapsTrack o stillCfg
        (some ⟨g.px 0 0, g.py 0 0, Complex.arg ⟨g.px 0 0 - g.px 0 0, g.py 0 0 - g.py 0 0⟩, 4, 2⟩) 1 0) := rfl
  rw [h2]
  refine (anyM_skip (by rfl)).trans ?_
  rw [anyM_single]
  rfl

/-- The claim of C69 for overlaps is false: a perfect prediction of a parked object overlaps another object in one world
frame and in another it does not, since the predicted direction of an object that does not move is always zero
(motion_metrics_utils.cc:258-272). -/
theorem hasOverlap_moved_violated :
    hasOverlap meet stillCfg 0 stillPrediction [(1, parked)] stillScenario = .ok false ∧
    hasOverlap meet stillCfg 0 (quarter.multi stillPrediction) (quarter.tracks [(1, parked)])
      (quarter.scenario stillScenario) = .ok true := by
  classical
  constructor
  · rw [still_eval]
    congr 1
    unfold meet
    refine decide_eq_false ?_
    rintro ⟨⟨x, y⟩, ⟨_, h2⟩, ⟨_, h4⟩⟩
    have h0 : Complex.arg ⟨(0 : ℝ) - 0, 0 - 0⟩ = 0 := by
      rw [sub_zero]
      exact Complex.arg_zero
    simp only [h0, Real.cos_zero, Real.sin_zero] at h2 h4
    rw [abs_lt] at h2 h4
    linarith [h2.1, h2.2, h4.1, h4.2]
  · rw [still_eval_moved]
    congr 1
    unfold meet
    refine decide_eq_true ⟨(-7 / 4, 0), ?_, ?_⟩
    · have h0 : Complex.arg ⟨quarter.px 0 0 - quarter.px 0 0, quarter.py 0 0 - quarter.py 0 0⟩ = 0 := by
        rw [sub_self, sub_self]
        exact Complex.arg_zero
      rw [h0]
      unfold Box.inside
      simp only [Real.cos_zero, Real.sin_zero, Motion.px, Motion.py, quarter]
      norm_num [abs_lt]
    · unfold Box.inside
      simp only [Motion.px, Motion.py, quarter, zero_add, Real.cos_pi_div_two, Real.sin_pi_div_two]
      norm_num [abs_lt]

/-- A trajectory along a line keeps moving, so the partial theorem applies to it. -/
theorem example_moving : Moving ⟨1, [0, 1, 2], [0, 1, 2]⟩ := by
  have hget : ∀ (i : ℤ) (x : ℝ), at' ([0, 1, 2] : List ℝ) i = .ok x → x = i := by
    intro i x h
    unfold at' at h
    split at h
    · simp at h
    · rename_i hi
      obtain ⟨n, rfl⟩ := Int.eq_ofNat_of_zero_le (by omega : 0 ≤ i)
      match n, h with
      | 0, h => simp at h; simp [← h]
      | 1, h => simp at h; simp [← h]
      | 2, h => simp at h; simp [← h]
      | n + 3, h => simp at h
  have hdir : ∀ (k : ℤ) (a : ℝ), direction ⟨1, [0, 1, 2], [0, 1, 2]⟩ (k + 1) k = .ok a → a = Complex.arg ⟨1, 1⟩ := by
    intro k a h
    unfold direction at h
    simp only [bind, Except.bind] at h
    cases h1 : at' ([0, 1, 2] : List ℝ) (k + 1) with
    | error e => rw [h1] at h; simp at h
    | ok x =>
      cases h2 : at' ([0, 1, 2] : List ℝ) k with
      | error e => rw [h1, h2] at h; simp at h
      | ok y =>
        rw [h1, h2] at h
        simp only [pure, Except.pure, Except.ok.injEq] at h
        have e1 := hget _ _ h1
        have e2 := hget _ _ h2
        have : x - y = 1 := by rw [e1, e2]; push_cast; ring
        rw [this] at h
        exact h.symm
  refine ⟨rfl, by simp, ?_, ?_⟩
  · intro i j x y x' y' hij hx _ hx' _
    left
    rw [hget _ _ hx, hget _ _ hx', hij]
    push_cast
    intro h
    linarith
  · intro k a b ha hb
    left
    have h1 := hdir k a ha
    have h2 := hdir (k - 1) b (by rw [sub_add_cancel]; exact hb)
    have hz : (⟨1, 1⟩ : ℂ) ≠ 0 := by
      intro h
      have := congrArg Complex.re h
      simp at this
    rw [h1, h2, Complex.cos_arg hz]
    have hn : 0 < ‖(⟨1, 1⟩ : ℂ)‖ := norm_pos_iff.mpr hz
    have : 0 < (1 : ℝ) / ‖(⟨1, 1⟩ : ℂ)‖ := by positivity
    exact ne_of_gt (by simpa using add_pos this this)

end Verif.Motion
