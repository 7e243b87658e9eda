import Verif.Model.Extract
import Mathlib.Tactic.NormNum
import Mathlib.Tactic.FinCases

/-!
C153 to C157: what the extractors of version 2 read from messages of version 1.
-/

namespace Verif.Extract

/-! ## Specification -/

/-- A component has every number of a message of a box. -/
def SameBox (b : Box) (r : Box3d) : Prop :=
  b = ⟨some r.center.x, some r.center.y, some r.center.z, some r.size.x, some r.size.y, some r.size.z, some r.heading⟩

/-- A component has every number of a message of a box of an image, which has no height. -/
def SameBox2 (b : Box) (r : Box2d) : Prop :=
  b = ⟨some r.center.1, some r.center.2, none, some r.size.1, some r.size.2, none, none⟩

/-- A field that is not set reads as its default. -/
def Reads {α : Type} (field : Option α) (default value : α) : Prop := field = some value ∨ (field = none ∧ value = default)

/-- A vector of the metadata: the last number may not be set. -/
def SameVector (a : Axes) (v : Vec3) : Prop := a.x = some v.x ∧ a.y = some v.y ∧ Reads a.z 0 v.z

/-- The vector of a label without metadata is missing. -/
def VectorOf (m : Option Metadata) (get : Metadata → Axes) (v : Option Vec3) : Prop :=
  (m = none ∧ v = none) ∨ ∃ m' v', m = some m' ∧ v = some v' ∧ SameVector (get m') v'

/-- A difficulty is given if one of the two is. -/
def DifficultyOf (l : Label) (d : Option (ℕ × ℕ)) : Prop :=
  (l.detection = none ∧ l.tracking = none ∧ d = none) ∨
    ((l.detection ≠ none ∨ l.tracking ≠ none) ∧ ∃ a b, d = some (a, b) ∧ Reads l.detection 0 a ∧ Reads l.tracking 0 b)

/-- A name of a camera of version 2 and its number. -/
inductive CameraCode : List Char → ℕ → Prop where
  | unknown : CameraCode "UNKNOWN".toList 0
  | front : CameraCode "FRONT".toList 1
  | frontLeft : CameraCode "FRONT_LEFT".toList 2
  | frontRight : CameraCode "FRONT_RIGHT".toList 3
  | sideLeft : CameraCode "SIDE_LEFT".toList 4
  | sideRight : CameraCode "SIDE_RIGHT".toList 5

/-- The names of the cameras of version 1, dataset.proto:50-63. -/
def v1Cameras : List (List Char) :=
  ["UNKNOWN".toList, "FRONT".toList, "FRONT_LEFT".toList, "FRONT_RIGHT".toList, "SIDE_LEFT".toList, "SIDE_RIGHT".toList,
    "REAR_LEFT".toList, "REAR".toList, "REAR_RIGHT".toList]

/-! ## Lemmas -/

theorem reads_getD {α : Type} (o : Option α) (d v : α) : Reads o d v ↔ o.getD d = v := by
  unfold Reads
  cases o with
  | none => simp [eq_comm]
  | some x => simp

theorem require_ok {b : Bool} {e : Err} {r : Unit} : require b e = .ok r ↔ b = true := by
  unfold require
  split <;> simp_all

theorem bind_ok {α β : Type} {x : Res α} {f : α → Res β} {b : β} :
    (x >>= f) = .ok b ↔ ∃ a, x = .ok a ∧ f a = .ok b := by
  cases x with
  | error e => simp [bind, Except.bind]
  | ok a => simp [bind, Except.bind]

theorem pure_ok {α : Type} {a b : α} : (pure a : Res α) = .ok b ↔ a = b := by
  simp [pure, Except.pure]

theorem map_ok {α β : Type} {x : Res α} {f : α → β} {b : β} : (x.map f) = .ok b ↔ ∃ a, x = .ok a ∧ f a = b := by
  cases x with
  | error e => simp [Except.map]
  | ok a => simp [Except.map]

theorem some_getD {α : Type} {o : Option α} {d : α} (h : o.isSome = true) : o = some (o.getD d) := by
  cases o with
  | none => simp at h
  | some x => rfl

theorem box3d_ok (b : Box) (r : Box3d) : box3d b = .ok r ↔ SameBox b r := by
  unfold box3d SameBox
  simp only [bind_ok, require_ok, pure_ok]
  constructor
  · rintro ⟨_, h1, _, h2, _, h3, _, h4, _, h5, _, h6, _, h7, rfl⟩
    obtain ⟨a, b, c, d, e, f, g⟩ := b
    simp only [Box.mk.injEq]
    exact ⟨some_getD h1, some_getD h2, some_getD h3, some_getD h4, some_getD h5, some_getD h6, some_getD h7⟩
  · rintro rfl
    exact ⟨(), rfl, (), rfl, (), rfl, (), rfl, (), rfl, (), rfl, (), rfl, rfl⟩

theorem box2d_ok (b : Box) (r : Box2d) : box2d b = .ok r ↔ SameBox2 b r := by
  unfold box2d SameBox2
  simp only [bind_ok, require_ok, pure_ok]
  constructor
  · rintro ⟨_, h1, _, h2, _, h3, _, h4, _, h5, _, h6, _, h7, rfl⟩
    obtain ⟨a, b, c, d, e, f, g⟩ := b
    simp only [Option.isNone_iff_eq_none] at h5 h6 h7
    simp only [Box.mk.injEq]
    exact ⟨some_getD h1, some_getD h2, h5, some_getD h3, some_getD h4, h6, h7⟩
  · rintro rfl
    exact ⟨(), rfl, (), rfl, (), rfl, (), rfl, (), rfl, (), rfl, (), rfl, rfl⟩

theorem bind_err {α β : Type} {x : Res α} {f : α → Res β} {e : Err} :
    (x >>= f) = .error e ↔ x = .error e ∨ ∃ a, x = .ok a ∧ f a = .error e := by
  cases x with
  | error e => simp [bind, Except.bind]
  | ok a => simp [bind, Except.bind]

theorem pure_err {α : Type} {a : α} {e : Err} : (pure a : Res α) = .error e ↔ False := by
  simp [pure, Except.pure]

theorem require_err {b : Bool} {e e' : Err} : require b e = .error e' ↔ b = false ∧ e' = e := by
  unfold require
  cases b <;> simp [eq_comm]

theorem box3d_err (b : Box) (e : Err) (h : box3d b = .error e) : e = .assertion := by
  unfold box3d at h
  simp only [bind_err, require_err, pure_err, and_false, exists_false, or_false] at h
  rcases h with h | ⟨_, _, h | ⟨_, _, h | ⟨_, _, h | ⟨_, _, h | ⟨_, _, h | ⟨_, _, h⟩⟩⟩⟩⟩⟩ <;> exact h.2

theorem metadataVector_err (l : Label) (get : Metadata → Axes) (e : Err) (h : metadataVector l get = .error e) : e = .assertion := by
  unfold metadataVector at h
  cases hm : l.metadata with
  | none => rw [hm] at h; simp [pure_err] at h
  | some m =>
    rw [hm] at h
    simp only [bind_err, require_err, pure_err, and_false, exists_false, or_false] at h
    rcases h with h | ⟨_, _, h⟩ <;> exact h.2

theorem metadataVector_ok (l : Label) (get : Metadata → Axes) (v : Option Vec3) :
    metadataVector l get = .ok v ↔ VectorOf l.metadata get v := by
  unfold metadataVector VectorOf
  cases l.metadata with
  | none =>
    simp only [pure_ok]
    exact ⟨fun h => Or.inl ⟨by trivial, h.symm⟩, fun h => by rcases h with ⟨_, h⟩ | ⟨_, _, h, _⟩ <;> simp_all⟩
  | some m =>
    simp only [bind_ok, require_ok, pure_ok]
    constructor
    · rintro ⟨_, h1, _, h2, rfl⟩
      exact Or.inr ⟨m, _, rfl, rfl, some_getD h1, some_getD h2, (reads_getD _ _ _).2 rfl⟩
    · rintro (⟨h, _⟩ | ⟨m', v', h, rfl, h1, h2, h3⟩)
      · exact absurd h (by simp)
      · obtain rfl := Option.some.inj h
        rw [reads_getD] at h3
        refine ⟨(), by rw [h1]; rfl, (), by rw [h2]; rfl, ?_⟩
        rw [h1, h2, h3]
        rfl

theorem difficulty_ok (l : Label) (d : Option (ℕ × ℕ)) : difficulty l = d ↔ DifficultyOf l d := by
  unfold difficulty DifficultyOf
  constructor
  · rintro rfl
    cases h : l.detection <;> cases h' : l.tracking <;> simp [reads_getD]
  · rintro (⟨h1, h2, rfl⟩ | ⟨h, a, b, rfl, h1, h2⟩)
    · simp [h1, h2]
    · rw [reads_getD] at h1 h2
      rw [if_neg, h1, h2]
      rcases h with h | h <;> simp [Option.isNone_iff_eq_none, h]

theorem cameraValue_ok (s : List Char) (n : ℕ) : cameraValue s = .ok n ↔ CameraCode s n := by
  constructor
  · intro h
    unfold cameraValue cameraNames at h
    simp only [List.findIdx?_cons, List.findIdx?_nil] at h
    by_cases h0 : "UNKNOWN".toList = s
    · subst h0
      simp at h
      subst h
      exact .unknown
    by_cases h1 : "FRONT".toList = s
    · subst h1
      simp at h
      subst h
      exact .front
    by_cases h2 : "FRONT_LEFT".toList = s
    · subst h2
      simp at h
      subst h
      exact .frontLeft
    by_cases h3 : "FRONT_RIGHT".toList = s
    · subst h3
      simp at h
      subst h
      exact .frontRight
    by_cases h4 : "SIDE_LEFT".toList = s
    · subst h4
      simp at h
      subst h
      exact .sideLeft
    by_cases h5 : "SIDE_RIGHT".toList = s
    · subst h5
      simp at h
      subst h
      exact .sideRight
    rw [beq_eq_false_iff_ne.2 h0, beq_eq_false_iff_ne.2 h1, beq_eq_false_iff_ne.2 h2, beq_eq_false_iff_ne.2 h3,
      beq_eq_false_iff_ne.2 h4, beq_eq_false_iff_ne.2 h5] at h
    simp at h
  · intro h
    cases h <;> rfl

theorem cameraValue_err (s : List Char) (e : Err) : cameraValue s = .error e ↔ e = .key ∧ ∀ n, ¬ CameraCode s n := by
  constructor
  · intro h
    refine ⟨?_, fun n hn => ?_⟩
    · unfold cameraValue at h
      split at h <;> simp_all
    · rw [(cameraValue_ok s n).2 hn] at h
      simp at h
  · rintro ⟨rfl, h⟩
    cases h' : cameraValue s with
    | ok n => exact absurd ((cameraValue_ok s n).1 h') (h n)
    | error e =>
      unfold cameraValue at h'
      split at h' <;> simp_all

/-! ## C153: boxes -/

/-- **C153**.  The component of the box of a laser label has every number of the label. -/
theorem laserBox_spec_partial (f : FrameKey) (l : Label) (c : LaserBox) :
    laserBox f l = .ok (some c) ↔ (∃ b, l.box = some b ∧ SameBox b c.box) ∧ c.key.1 = f ∧ Reads l.id [] c.key.2 ∧
      Reads l.type 0 c.type ∧ VectorOf l.metadata Metadata.speed c.speed ∧ VectorOf l.metadata Metadata.accel c.acceleration ∧
      Reads l.points 0 c.points ∧ Reads l.topPoints 0 c.topPoints ∧ DifficultyOf l c.difficulty := by
  simp only [reads_getD]
  unfold laserBox
  cases h : l.box with
  | none => simp [pure_ok]
  | some b =>
    simp only [bind_ok, pure_ok, box3d_ok, metadataVector_ok, Option.some.injEq, exists_eq_left']
    rw [← difficulty_ok]
    constructor
    · rintro ⟨x, hx, s, hs, a, ha, rfl⟩
      exact ⟨hx, rfl, rfl, rfl, hs, ha, rfl, rfl, rfl⟩
    · obtain ⟨⟨k1, k2⟩, cb, ct, cs, ca, cp, ctp, cd⟩ := c
      rintro ⟨hx, rfl, rfl, rfl, hs, ha, rfl, rfl, rfl⟩
      exact ⟨cb, hx, cs, hs, ca, ha, rfl⟩

/-- **C153**.  There is no component exactly if the label has no box. -/
theorem laserBox_none (f : FrameKey) (l : Label) : laserBox f l = .ok none ↔ l.box = none := by
  unfold laserBox
  cases h : l.box with
  | none => simp [pure_ok]
  | some b => simp only [bind_ok, pure_ok, reduceCtorEq, and_false, exists_false]

/-- **C153**.  The component of the box that is synchronised with a camera. -/
theorem syncedBox_spec (f : FrameKey) (l : Label) (c : SyncedBox) :
    syncedBox f l = .ok (some c) ↔ (∃ n, l.visible = some n ∧ CameraCode n c.camera) ∧ (∃ b, l.synced = some b ∧ SameBox b c.box) ∧
      c.key.1 = f ∧ Reads l.id [] c.key.2 := by
  simp only [reads_getD]
  unfold syncedBox
  constructor
  · intro h
    split at h
    · simp [pure_ok] at h
    · rename_i hv
      cases hs : l.synced with
      | none => rw [hs] at h; simp [pure_ok] at h
      | some b =>
        rw [hs] at h
        simp only [bind_ok, pure_ok, cameraValue_ok, box3d_ok, Option.some.injEq] at h
        obtain ⟨n, hn, x, hx, rfl⟩ := h
        refine ⟨?_, ⟨b, rfl, hx⟩, rfl, rfl⟩
        cases hv' : l.visible with
        | none => simp [hv'] at hv
        | some s => rw [hv'] at hn; exact ⟨s, rfl, hn⟩
  · obtain ⟨⟨k1, k2⟩, cc, cb⟩ := c
    rintro ⟨⟨n, hn, hc⟩, ⟨b, hb, hx⟩, rfl, rfl⟩
    rw [hn, hb]
    have : (some n).getD [] ≠ [] := by
      simp only [Option.getD_some]
      cases hc <;> simp
    rw [if_neg this]
    simp only [bind_ok, pure_ok, cameraValue_ok, box3d_ok, Option.some.injEq]
    exact ⟨cc, hc, cb, hx, rfl⟩

/-- **C153**.  There is no component exactly if the camera or the box is not given. -/
theorem syncedBox_none (f : FrameKey) (l : Label) :
    syncedBox f l = .ok none ↔ l.visible = none ∨ l.visible = some [] ∨ l.synced = none := by
  unfold syncedBox
  cases hv : l.visible with
  | none => simp [pure_ok]
  | some s =>
    cases hs : l.synced with
    | none => simp [pure_ok]
    | some b =>
      simp only [Option.getD_some]
      by_cases h : s = []
      · simp [h, pure_ok]
      · rw [if_neg h]
        simp only [bind_ok, pure_ok, reduceCtorEq, and_false, exists_false, Option.some.injEq, h, or_self]

/-- **C153**.  The component of a box of an image has every number of the label. -/
theorem cameraBox_spec (f : FrameKey) (camera : ℕ) (l : Label) (c : CameraBox) :
    cameraBox f camera l = .ok (some c) ↔ (∃ b, l.box = some b ∧ SameBox2 b c.box) ∧ c.key.1 = f ∧ c.key.2.1 = camera ∧
      Reads l.id [] c.key.2.2 ∧ Reads l.type 0 c.type ∧ DifficultyOf l c.difficulty := by
  simp only [reads_getD]
  unfold cameraBox
  cases h : l.box with
  | none => simp [pure_ok]
  | some b =>
    simp only [bind_ok, pure_ok, box2d_ok, Option.some.injEq, exists_eq_left']
    rw [← difficulty_ok]
    constructor
    · rintro ⟨x, hx, rfl⟩
      exact ⟨hx, rfl, rfl, rfl, rfl, rfl⟩
    · obtain ⟨⟨k1, k2, k3⟩, cb, ct, cd⟩ := c
      rintro ⟨hx, rfl, rfl, rfl, rfl, rfl⟩
      exact ⟨cb, hx, rfl⟩

theorem cameraBox_none (f : FrameKey) (camera : ℕ) (l : Label) : cameraBox f camera l = .ok none ↔ l.box = none := by
  unfold cameraBox
  cases h : l.box with
  | none => simp [pure_ok]
  | some b => simp only [bind_ok, pure_ok, reduceCtorEq, and_false, exists_false]

/-- **C153**.  Two labels with metadata, whose fields are all set, and the same component are the same up to the fields for
other components. -/
theorem laserBox_lossless (f g : FrameKey) (l m : Label) (c : LaserBox) (hl : laserBox f l = .ok (some c)) (hm : laserBox g m = .ok (some c))
    (set : ∀ x ∈ [l, m], x.id.isSome ∧ x.type.isSome ∧ x.points.isSome ∧ x.topPoints.isSome ∧ x.detection.isSome ∧ x.tracking.isSome ∧
      ∀ d, x.metadata = some d → d.speed.z.isSome ∧ d.accel.z.isSome) :
    f = g ∧ l.box = m.box ∧ l.id = m.id ∧ l.type = m.type ∧ l.metadata = m.metadata ∧ l.points = m.points ∧
      l.topPoints = m.topPoints ∧ l.detection = m.detection ∧ l.tracking = m.tracking := by
  rw [laserBox_spec_partial] at hl hm
  obtain ⟨⟨b, hb, sb⟩, k1, k2, ty, sp, ac, pt, tp, di⟩ := hl
  obtain ⟨⟨b', hb', sb'⟩, k1', k2', ty', sp', ac', pt', tp', di'⟩ := hm
  obtain ⟨s1, s2, s3, s4, s5, s6, s7⟩ := set l (by simp)
  obtain ⟨t1, t2, t3, t4, t5, t6, t7⟩ := set m (by simp)
  have key : ∀ {α : Type} {o o' : Option α} {d v : α}, Reads o d v → Reads o' d v → o.isSome → o'.isSome → o = o' := by
    intro α o o' d v h h' s s'
    rw [reads_getD] at h h'
    rw [some_getD (d := d) s, some_getD (d := d) s', h, h']
  have axes : ∀ {a a' : Axes} {v : Vec3}, SameVector a v → SameVector a' v → a.z.isSome → a'.z.isSome → a = a' := by
    intro a a' v h h' s s'
    obtain ⟨x, y, z⟩ := a
    obtain ⟨x', y', z'⟩ := a'
    simp only [Axes.mk.injEq]
    exact ⟨h.1.trans h'.1.symm, h.2.1.trans h'.2.1.symm, key h.2.2 h'.2.2 s s'⟩
  refine ⟨k1.symm.trans k1', ?_, key k2 k2' s1 t1, key ty ty' s2 t2, ?_, key pt pt' s3 t3, key tp tp' s4 t4, ?_, ?_⟩
  · rw [hb, hb', sb.trans sb'.symm]
  · rcases sp with ⟨h1, h2⟩ | ⟨a, v, h1, h2, h3⟩
    · rcases sp' with ⟨h1', _⟩ | ⟨a', v', _, h2', _⟩
      · rw [h1, h1']
      · rw [h2] at h2'; exact absurd h2' (by simp)
    · rcases sp' with ⟨_, h2'⟩ | ⟨a', v', h1', h2', h3'⟩
      · rw [h2] at h2'; exact absurd h2' (by simp)
      · rcases ac with ⟨h4, _⟩ | ⟨d, w, h4, h5, h6⟩
        · rw [h1] at h4; exact absurd h4 (by simp)
        rcases ac' with ⟨h4', _⟩ | ⟨d', w', h4', h5', h6'⟩
        · rw [h1'] at h4'; exact absurd h4' (by simp)
        rw [h1] at h4; rw [h1'] at h4'
        obtain rfl := Option.some.inj h4
        obtain rfl := Option.some.inj h4'
        obtain rfl := Option.some.inj (h2.symm.trans h2')
        obtain rfl := Option.some.inj (h5.symm.trans h5')
        have e1 := axes h3 h3' (s7 _ h1).1 (t7 _ h1').1
        have e2 := axes h6 h6' (s7 _ h1).2 (t7 _ h1').2
        rw [h1, h1']
        obtain ⟨p, q⟩ := a
        obtain ⟨p', q'⟩ := a'
        simp only at e1 e2
        rw [e1, e2]
  · rcases di with ⟨h, _⟩ | ⟨_, a, b, h, h1, h2⟩
    · rw [h] at s5; exact absurd s5 (by simp)
    rcases di' with ⟨h', _⟩ | ⟨_, a', b', h', h1', h2'⟩
    · rw [h'] at t5; exact absurd t5 (by simp)
    rw [h] at h'
    simp only [Option.some.injEq, Prod.mk.injEq] at h'
    obtain ⟨rfl, rfl⟩ := h'
    exact key h1 h1' s5 t5
  · rcases di with ⟨_, h, _⟩ | ⟨_, a, b, h, h1, h2⟩
    · rw [h] at s6; exact absurd s6 (by simp)
    rcases di' with ⟨_, h', _⟩ | ⟨_, a', b', h', h1', h2'⟩
    · rw [h'] at t6; exact absurd t6 (by simp)
    rw [h] at h'
    simp only [Option.some.injEq, Prod.mk.injEq] at h'
    obtain ⟨rfl, rfl⟩ := h'
    exact key h2 h2' s6 t6

/-- A car, whose fields are all set. -/
def exampleLabel : Label :=
  { box := some ⟨some 1, some 2, some 3, some 4, some 5, some 6, some 7⟩,
    metadata := some ⟨⟨some 8, some 9, none⟩, ⟨some 10, some 11, some 12⟩⟩,
    type := some 1, id := some "a".toList, points := some 5, visible := some "FRONT_LEFT".toList,
    synced := some ⟨some 1, some 2, some 3, some 4, some 5, some 6, some 8⟩ }

theorem example_laser : laserBox ⟨[], 3⟩ exampleLabel =
    .ok (some ⟨(⟨[], 3⟩, "a".toList), ⟨⟨1, 2, 3⟩, ⟨4, 5, 6⟩, 7⟩, 1, some ⟨8, 9, 0⟩, some ⟨10, 11, 12⟩, 5, 0, none⟩) := rfl

theorem example_synced : syncedBox ⟨[], 3⟩ exampleLabel =
    .ok (some ⟨(⟨[], 3⟩, "a".toList), 2, ⟨⟨1, 2, 3⟩, ⟨4, 5, 6⟩, 8⟩⟩) := rfl

/-- **C153**.  The documented error for fields that are missing is not the one that is raised. -/
theorem laserBox_error (f : FrameKey) (l : Label) (e : Err) (h : laserBox f l = .error e) : e = .assertion := by
  unfold laserBox at h
  cases hb : l.box with
  | none => rw [hb] at h; simp [pure_err] at h
  | some b =>
    rw [hb] at h
    simp only [bind_err, pure_err, and_false, exists_false, or_false] at h
    rcases h with h | ⟨_, _, h | ⟨_, _, h⟩⟩
    · exact box3d_err b e h
    · exact metadataVector_err l _ e h
    · exact metadataVector_err l _ e h

/-- **C153, violated**.  A label with a speed and no acceleration has no component, although the acceleration of a component
may be missing; and the error is not the documented one. -/
theorem laserBox_violated : laserBox ⟨[], 0⟩ { exampleLabel with metadata := some ⟨⟨some 1, some 2, some 3⟩, {}⟩ } = .error .assertion ∧
    laserBox ⟨[], 0⟩ { exampleLabel with box := some ⟨some 1, some 2, some 3, some 4, some 5, some 6, none⟩ } = .error .assertion ∧
    syncedBox ⟨[], 0⟩ { exampleLabel with visible := some "REAR".toList } = .error .key := ⟨rfl, rfl, rfl⟩

/-! ## C154: boxes of the laser in an image -/

theorem code_not_suffix (p s n : List Char) (c : ℕ) (h : CameraCode s c) (hn : n ∈ v1Cameras) : s ≠ p ++ '_' :: n := by
  intro e
  have hs : '_' :: n <:+ s := ⟨p, e.symm⟩
  simp only [v1Cameras, List.mem_cons, List.not_mem_nil, or_false] at hn
  cases h <;> rcases hn with rfl | rfl | rfl | rfl | rfl | rfl | rfl | rfl | rfl <;> exact absurd hs (by decide)

theorem code_not_tail (s n : List Char) (k c : ℕ) (h : CameraCode s c) (hn : n ∈ v1Cameras) (hk : 0 < k) : s ≠ n.drop k := by
  intro e
  have hs : s <:+ n := e ▸ List.drop_suffix k n
  have hlen : s.length < n.length := by
    have : s.length = n.length - k := by rw [e, List.length_drop]
    have h0 : 0 < s.length := by cases h <;> decide
    omega
  simp only [v1Cameras, List.mem_cons, List.not_mem_nil, or_false] at hn
  cases h <;> rcases hn with rfl | rfl | rfl | rfl | rfl | rfl | rfl | rfl | rfl <;>
    first
    | exact absurd hs (by decide)
    | exact absurd hlen (by decide)

/-- **C154**.  The id of a box in an image is the id of the object, an underscore and the camera.  It is parsed exactly if the id of
the object has 22 characters and the camera is one of version 2, and then as these two. -/
theorem parseId_spec_partial (object camera : List Char) (hc : camera ∈ v1Cameras) (o : List Char) (n : ℕ) :
    parseId (object ++ '_' :: camera) = .ok (o, n) ↔ object.length = 22 ∧ o = object ∧ CameraCode camera n := by
  unfold parseId
  simp only [bind_ok, cameraValue_ok, pure_ok, Prod.mk.injEq]
  have dropAt : object.length = 22 → (object ++ '_' :: camera).drop 23 = camera := by
    intro hl
    rw [List.drop_append, hl, List.drop_of_length_le (by omega)]
    rfl
  have takeAt : object.length = 22 → (object ++ '_' :: camera).take 22 = object := by
    intro hl
    rw [List.take_append_of_le_length (by omega), List.take_of_length_le (by omega)]
  constructor
  · rintro ⟨n', h, ho, rfl⟩
    rcases lt_trichotomy object.length 22 with hl | hl | hl
    · exfalso
      rw [List.drop_append, List.drop_of_length_le (by omega), List.nil_append] at h
      obtain ⟨k, hk⟩ : ∃ k, 23 - object.length = k + 2 := ⟨21 - object.length, by omega⟩
      rw [hk, List.drop_succ_cons] at h
      exact code_not_tail _ camera (k + 1) _ h hc (by omega) rfl
    · rw [dropAt hl] at h
      rw [takeAt hl] at ho
      exact ⟨hl, ho.symm, h⟩
    · exfalso
      rw [List.drop_append_of_le_length (by omega)] at h
      exact code_not_suffix _ _ _ _ h hc rfl
  · rintro ⟨hl, rfl, h⟩
    exact ⟨n, by rwa [dropAt hl], takeAt hl, rfl⟩

/-- **C154**.  An id that is not parsed is a `KeyError`. -/
theorem parseId_error (id : List Char) (e : Err) (h : parseId id = .error e) : e = .key := by
  unfold parseId at h
  simp only [bind_err, pure_err, and_false, exists_false, or_false, cameraValue_err] at h
  exact h.1

/-- **C154**.  The component of a box of the laser in an image. -/
theorem projectedBox_spec (f : FrameKey) (l : Label) (c : ProjectedBox) :
    projectedBox f l = .ok (some c) ↔ (∃ b, l.box = some b ∧ SameBox2 b c.box) ∧ c.key.1 = f ∧
      (∃ id, l.id = some id ∧ parseId id = .ok (c.key.2.2, c.key.2.1)) ∧ Reads l.type 0 c.type := by
  simp only [reads_getD]
  unfold projectedBox
  cases h : l.box with
  | none => simp [pure_ok]
  | some b =>
    simp only [bind_ok, pure_ok, box2d_ok, Option.some.injEq, exists_eq_left']
    constructor
    · rintro ⟨⟨o, n⟩, hp, x, hx, rfl⟩
      refine ⟨hx, rfl, ?_, rfl⟩
      cases hi : l.id with
      | none => rw [hi] at hp; exact absurd hp (by have : parseId ((none : Option (List Char)).getD []) = .error .key := rfl
                                                   rw [this]; simp)
      | some id => rw [hi] at hp; exact ⟨id, rfl, hp⟩
    · obtain ⟨⟨k1, k2, k3⟩, cb, ct⟩ := c
      rintro ⟨hx, rfl, ⟨id, hi, hp⟩, rfl⟩
      exact ⟨(k3, k2), by rw [hi]; exact hp, cb, hx, rfl⟩

theorem projectedBox_none (f : FrameKey) (l : Label) : projectedBox f l = .ok none ↔ l.box = none := by
  unfold projectedBox
  cases h : l.box with
  | none => simp [pure_ok]
  | some b => simp only [bind_ok, pure_ok, reduceCtorEq, and_false, exists_false]

/-- **C154, violated**.  The character between the object and the camera is not looked at: two ids give the same object and camera. -/
theorem parseId_violated : parseId (List.replicate 22 'a' ++ "_FRONT".toList) = parseId (List.replicate 22 'a' ++ "XFRONT".toList) ∧
    parseId (List.replicate 21 'a' ++ "_FRONT".toList) = .error .key := ⟨rfl, rfl⟩

/-- A box of the laser in the image of a camera. -/
def exampleProjected : Label :=
  { box := some ⟨some 1, some 2, none, some 3, some 4, none, none⟩,
    id := some (List.replicate 22 'a' ++ "_SIDE_LEFT".toList),
    type := some 2 }

theorem example_projected : projectedBox ⟨[], 3⟩ exampleProjected =
    .ok (some ⟨(⟨[], 3⟩, 4, List.replicate 22 'a'), ⟨(1, 2), (3, 4)⟩, 2⟩) := rfl

/-! ## C155: keypoints -/

/-- A keypoint with its fields. -/
def Complete (k : Keypoint) : Prop := ∃ t loc vis, k = ⟨some t, some ⟨some loc, some vis⟩⟩

/-- A row of the columns of keypoints is a keypoint. -/
def RowOf (dim : ℕ) (r : Keypoints) (i : ℕ) (k : Keypoint) : Prop :=
  ∃ t loc vis, k = ⟨some t, some ⟨some loc, some vis⟩⟩ ∧ r.type[i]? = some t ∧ (∃ v, r.occluded[i]? = some v ∧ Reads vis false v) ∧
    ∀ d < dim, ∃ col x, r.coords[d]? = some col ∧ col[i]? = some x ∧ x = ((loc[d]?).getD none).getD 0

theorem requireKeypoint_ok (k : Keypoint) : requireKeypoint k = .ok () ↔ Complete k := by
  unfold requireKeypoint Complete
  simp only [bind_ok, require_ok]
  constructor
  · rintro ⟨_, h1, _, h2, _, h3, h4⟩
    obtain ⟨t, p⟩ := k
    cases t with
    | none => simp at h1
    | some t =>
      cases p with
      | none => simp at h2
      | some p =>
        obtain ⟨l, v⟩ := p
        cases l with
        | none => simp at h3
        | some l =>
          cases v with
          | none => simp at h4
          | some v => exact ⟨t, l, v, rfl⟩
  · rintro ⟨t, l, v, rfl⟩
    exact ⟨(), rfl, (), rfl, (), rfl, rfl⟩

theorem requireKeypoint_err (k : Keypoint) (e : Err) (h : requireKeypoint k = .error e) : e = .extraction := by
  unfold requireKeypoint at h
  simp only [bind_err, require_err] at h
  rcases h with h | ⟨_, _, h | ⟨_, _, h | ⟨_, _, h⟩⟩⟩ <;> exact h.2

/-- What the loop appends. -/
def columns (dim : ℕ) (s : Keypoints) (ks : List Keypoint) : Keypoints :=
  ⟨s.type ++ ks.map (fun k => k.type.getD 0), s.occluded ++ ks.map (fun k => ((k.place.getD {}).visibility.getD none).getD false),
    (List.range dim).map fun i => s.coords.getD i [] ++ ks.map fun k => coordinate k i⟩

theorem keypointLoop_ok (dim : ℕ) (ks : List Keypoint) : ∀ (s r : Keypoints), s.coords.length = dim →
    (keypointLoop dim s ks = .ok r ↔ (∀ k ∈ ks, Complete k) ∧ r = columns dim s ks) := by
  induction ks with
  | nil =>
    intro s r hs
    have : columns dim s [] = s := by
      unfold columns
      obtain ⟨a, b, c⟩ := s
      simp only [List.map_nil, List.append_nil, Keypoints.mk.injEq, true_and]
      subst hs
      apply List.ext_getElem
      · simp
      · intro i h1 h2
        simp [List.getD_eq_getElem?_getD, h2]
    simp only [keypointLoop, pure_ok, List.not_mem_nil, false_implies, implies_true, true_and, this]
    exact eq_comm
  | cons k ks ih =>
    intro s r hs
    simp only [keypointLoop, bind_ok, List.mem_cons, forall_eq_or_imp]
    have e : ∀ s' : Keypoints, s' = ⟨s.type ++ [k.type.getD 0], s.occluded ++ [((k.place.getD {}).visibility.getD none).getD false],
        (List.range dim).map fun i => (s.coords.getD i []) ++ [coordinate k i]⟩ → columns dim s' ks = columns dim s (k :: ks) := by
      rintro s' rfl
      unfold columns
      simp only [List.append_assoc, List.map_cons, List.singleton_append, Keypoints.mk.injEq, true_and]
      apply List.map_congr_left
      intro i hi
      rw [List.mem_range] at hi
      simp [List.getD_eq_getElem?_getD, hi]
    rw [← e _ rfl]
    constructor
    · rintro ⟨_, h1, h2⟩
      rw [ih _ _ (by simp)] at h2
      exact ⟨⟨(requireKeypoint_ok k).1 h1, h2.1⟩, h2.2⟩
    · rintro ⟨⟨h1, h2⟩, h3⟩
      exact ⟨(), (requireKeypoint_ok k).2 h1, (ih _ _ (by simp)).2 ⟨h2, h3⟩⟩

theorem keypointLoop_err (dim : ℕ) (ks : List Keypoint) : ∀ (s : Keypoints) (e : Err), keypointLoop dim s ks = .error e →
    e = .extraction ∧ ∃ k ∈ ks, ¬ Complete k := by
  induction ks with
  | nil => intro s e h; simp [keypointLoop, pure_err] at h
  | cons k ks ih =>
    intro s e h
    simp only [keypointLoop, bind_err] at h
    rcases h with h | ⟨_, _, h⟩
    · refine ⟨requireKeypoint_err k e h, k, by simp, fun hc => ?_⟩
      rw [(requireKeypoint_ok k).2 hc] at h
      simp at h
    · obtain ⟨h1, k', h2, h3⟩ := ih _ _ h
      exact ⟨h1, k', by simp [h2], h3⟩

/-- **C155**.  The columns have one row for each keypoint, in order. -/
theorem keypoints_spec (dim : ℕ) (ks : Option (List Keypoint)) (r : Keypoints) :
    keypoints dim ks = .ok (some r) ↔ ∃ l, ks = some l ∧ r.type.length = l.length ∧ r.occluded.length = l.length ∧ r.coords.length = dim ∧
      (∀ c ∈ r.coords, c.length = l.length) ∧ ∀ i k, l[i]? = some k → RowOf dim r i k := by
  unfold keypoints
  cases ks with
  | none => simp [pure_ok]
  | some l =>
    simp only [map_ok, Option.some.injEq, exists_eq_left', exists_eq_right]
    rw [keypointLoop_ok dim l _ _ (by simp)]
    constructor
    · rintro ⟨hc, rfl⟩
      refine ⟨by simp [columns], by simp [columns], by simp [columns], ?_, ?_⟩
      · intro c hm
        simp only [columns, List.mem_map, List.mem_range] at hm
        obtain ⟨i, hi, rfl⟩ := hm
        simp [List.getD_eq_getElem?_getD, List.getElem?_replicate, hi]
      · intro i k hk
        obtain ⟨t, loc, vis, rfl⟩ := hc k (List.mem_of_getElem? hk)
        refine ⟨t, loc, vis, rfl, by simp [columns, hk], ⟨_, by simp only [columns, List.nil_append, List.getElem?_map, hk]; rfl, (reads_getD _ _ _).2 rfl⟩, ?_⟩
        intro d hd
        refine ⟨_, _, by simp [columns, hd]; rfl, ?_, rfl⟩
        simp [List.getElem?_replicate, hd, hk, coordinate]
    · rintro ⟨h1, h2, h3, h4, h5⟩
      refine ⟨fun k hk => ?_, ?_⟩
      · obtain ⟨i, hi⟩ := List.getElem?_of_mem hk
        obtain ⟨t, loc, vis, h, _⟩ := h5 i k hi
        exact ⟨t, loc, vis, h⟩
      · obtain ⟨rt, ro, rc⟩ := r
        simp only at h1 h2 h3 h4
        unfold columns
        simp only [List.nil_append, Keypoints.mk.injEq]
        refine ⟨?_, ?_, ?_⟩
        · apply List.ext_getElem?
          intro i
          by_cases hi : i < l.length
          · obtain ⟨t, loc, vis, h, ht, _⟩ := h5 i l[i] (List.getElem?_eq_getElem hi)
            simp only at ht
            rw [ht]
            simp [hi, h]
          · rw [List.getElem?_eq_none (by omega), List.getElem?_eq_none (by simp; omega)]
        · apply List.ext_getElem?
          intro i
          by_cases hi : i < l.length
          · obtain ⟨t, loc, vis, h, _, ⟨v, hv, hr⟩, _⟩ := h5 i l[i] (List.getElem?_eq_getElem hi)
            simp only at hv
            rw [reads_getD] at hr
            rw [hv]
            simp [hi, h, hr]
          · rw [List.getElem?_eq_none (by omega), List.getElem?_eq_none (by simp; omega)]
        · apply List.ext_getElem
          · simp [h3]
          intro d hd hd'
          have hdd : d < dim := by omega
          simp only [List.getElem_map, List.getElem_range, List.getD_eq_getElem?_getD, List.getElem?_replicate, hdd, if_true,
            Option.getD_some, List.nil_append]
          apply List.ext_getElem?
          intro i
          by_cases hi : i < l.length
          · obtain ⟨t, loc, vis, h, _, _, hx⟩ := h5 i l[i] (List.getElem?_eq_getElem hi)
            obtain ⟨col, x, hcol, hx, hv⟩ := hx d hdd
            simp only [List.getElem?_eq_getElem hd, Option.some.injEq] at hcol
            rw [hcol, hx, hv]
            simp [hi, h, coordinate]
          · have := h4 _ (List.getElem_mem hd)
            rw [List.getElem?_eq_none (by omega), List.getElem?_eq_none (by simp; omega)]

/-- **C155**.  There is no component exactly if the label has no keypoints; a list of no keypoints has one. -/
theorem keypoints_none (dim : ℕ) (ks : Option (List Keypoint)) : keypoints dim ks = .ok none ↔ ks = none := by
  unfold keypoints
  cases ks with
  | none => simp [pure_ok]
  | some l => simp [map_ok]

/-- **C155**.  A keypoint with a field missing is the documented error, and there is no other error. -/
theorem keypoints_error (dim : ℕ) (ks : Option (List Keypoint)) (e : Err) :
    keypoints dim ks = .error e ↔ e = .extraction ∧ ∃ l, ks = some l ∧ ∃ k ∈ l, ¬ Complete k := by
  unfold keypoints
  cases ks with
  | none => simp [pure_err]
  | some l =>
    simp only [Option.some.injEq, exists_eq_left']
    cases h : keypointLoop dim ⟨[], [], List.replicate dim []⟩ l with
    | error e' =>
      have := keypointLoop_err dim l _ _ h
      simp only [Except.map, Except.error.injEq]
      constructor
      · rintro rfl; exact this
      · rintro ⟨rfl, _⟩; exact this.1
    | ok r =>
      rw [keypointLoop_ok dim l _ _ (by simp)] at h
      simp only [Except.map, reduceCtorEq, false_iff, not_and, not_exists, not_not]
      intro _ k hk
      exact h.1 k hk

/-- **C155**.  The keypoints of a label in an image. -/
theorem cameraKeypoints_spec (f : FrameKey) (camera : ℕ) (l : Label) (key : FrameKey × ℕ × List Char) (r : Keypoints) :
    cameraKeypoints f camera l = .ok (some (key, r)) ↔ keypoints 2 l.cameraKeypoints = .ok (some r) ∧ key.1 = f ∧ key.2.1 = camera ∧
      Reads l.id [] key.2.2 := by
  simp only [reads_getD]
  unfold cameraKeypoints
  simp only [bind_ok, pure_ok, Option.map_eq_some_iff, Prod.mk.injEq]
  obtain ⟨k1, k2, k3⟩ := key
  constructor
  · rintro ⟨a, h, b, rfl, ⟨rfl, rfl, rfl⟩, rfl⟩
    exact ⟨h, rfl, rfl, rfl⟩
  · rintro ⟨h, rfl, rfl, rfl⟩
    exact ⟨_, h, r, rfl, rfl, rfl⟩

/-- **C155**.  The keypoints of a label of the laser. -/
theorem laserKeypoints_spec (f : FrameKey) (l : Label) (key : FrameKey × List Char) (r : Keypoints) :
    laserKeypoints f l = .ok (some (key, r)) ↔ keypoints 3 l.laserKeypoints = .ok (some r) ∧ key.1 = f ∧ Reads l.id [] key.2 := by
  simp only [reads_getD]
  unfold laserKeypoints
  simp only [bind_ok, pure_ok, Option.map_eq_some_iff, Prod.mk.injEq]
  obtain ⟨k1, k2⟩ := key
  constructor
  · rintro ⟨a, h, b, rfl, ⟨rfl, rfl⟩, rfl⟩
    exact ⟨h, rfl, rfl⟩
  · rintro ⟨h, rfl, rfl⟩
    exact ⟨_, h, r, rfl, rfl, rfl⟩

theorem example_keypoints : keypoints 2 (some [⟨some 1, some ⟨some [some 3, some 4], some (some true)⟩⟩, ⟨some 5, some ⟨some [some 6, none], some none⟩⟩]) =
    .ok (some ⟨[1, 5], [true, false], [[3, 6], [4, 0]]⟩) := rfl

/-! ## C156: keys -/

/-- **C156**.  The components of two labels of the laser have the same key only if the labels have the same id and frame, and the
components of one label have the same key. -/
theorem laser_keys (f g : FrameKey) (l m : Label) (hl : l.id.isSome) (hm : m.id.isSome) (c : LaserBox) (s : SyncedBox) (k : FrameKey × List Char)
    (r : Keypoints) (hc : laserBox f l = .ok (some c)) :
    (∀ c', laserBox g m = .ok (some c') → (c.key = c'.key ↔ f = g ∧ l.id = m.id)) ∧
      (syncedBox g m = .ok (some s) → (c.key = s.key ↔ f = g ∧ l.id = m.id)) ∧
      (laserKeypoints g m = .ok (some (k, r)) → (c.key = k ↔ f = g ∧ l.id = m.id)) := by
  have key : ∀ (a b : FrameKey × List Char), a.1 = f → Reads l.id [] a.2 → b.1 = g → Reads m.id [] b.2 → (a = b ↔ f = g ∧ l.id = m.id) := by
    rintro ⟨a1, a2⟩ ⟨b1, b2⟩ rfl h rfl h'
    rw [reads_getD] at h h'
    rw [some_getD (d := []) hl, some_getD (d := []) hm, h, h']
    simp
  rw [laserBox_spec_partial] at hc
  refine ⟨fun c' h => ?_, fun h => ?_, fun h => ?_⟩
  · rw [laserBox_spec_partial] at h
    exact key _ _ hc.2.1 hc.2.2.1 h.2.1 h.2.2.1
  · rw [syncedBox_spec] at h
    exact key _ _ hc.2.1 hc.2.2.1 h.2.2.1 h.2.2.2
  · rw [laserKeypoints_spec] at h
    exact key _ _ hc.2.1 hc.2.2.1 h.2.1 h.2.2

/-- **C156**.  The components of two labels of images have the same key only if the labels have the same id, camera and frame. -/
theorem camera_keys (f g : FrameKey) (n p : ℕ) (l m : Label) (hl : l.id.isSome) (hm : m.id.isSome) (c : CameraBox) (k : FrameKey × ℕ × List Char)
    (r : Keypoints) (hc : cameraBox f n l = .ok (some c)) :
    (∀ c', cameraBox g p m = .ok (some c') → (c.key = c'.key ↔ f = g ∧ n = p ∧ l.id = m.id)) ∧
      (cameraKeypoints g p m = .ok (some (k, r)) → (c.key = k ↔ f = g ∧ n = p ∧ l.id = m.id)) := by
  have key : ∀ (a b : FrameKey × ℕ × List Char), a.1 = f → a.2.1 = n → Reads l.id [] a.2.2 → b.1 = g → b.2.1 = p → Reads m.id [] b.2.2 →
      (a = b ↔ f = g ∧ n = p ∧ l.id = m.id) := by
    rintro ⟨a1, a2, a3⟩ ⟨b1, b2, b3⟩ rfl rfl h rfl rfl h'
    rw [reads_getD] at h h'
    rw [some_getD (d := []) hl, some_getD (d := []) hm, h, h']
    simp
  rw [cameraBox_spec] at hc
  refine ⟨fun c' h => ?_, fun h => ?_⟩
  · rw [cameraBox_spec] at h
    exact key _ _ hc.2.1 hc.2.2.1 hc.2.2.2.1 h.2.1 h.2.2.1 h.2.2.2.1
  · rw [cameraKeypoints_spec] at h
    exact key _ _ hc.2.1 hc.2.2.1 hc.2.2.2.1 h.2.1 h.2.2.1 h.2.2.2

/-- **C156**.  The box of an object of the laser in an image and the box of the object in space have the same frame and object
exactly if the id in the image is that of the object. -/
theorem projected_keys (f g : FrameKey) (l m : Label) (object other camera : List Char) (hcam : camera ∈ v1Cameras) (c : LaserBox) (p : ProjectedBox)
    (hl : l.id = some object) (hm : m.id = some (other ++ '_' :: camera)) (hc : laserBox f l = .ok (some c))
    (hp : projectedBox g m = .ok (some p)) :
    ((c.key.1, c.key.2) = (p.key.1, p.key.2.2) ↔ f = g ∧ object = other) ∧ CameraCode camera p.key.2.1 := by
  rw [laserBox_spec_partial] at hc
  rw [projectedBox_spec] at hp
  obtain ⟨_, hf, hr, _⟩ := hc
  obtain ⟨_, hg, ⟨id, hid, hpar⟩, _⟩ := hp
  rw [hm] at hid
  obtain rfl := Option.some.inj hid
  rw [parseId_spec_partial _ _ hcam] at hpar
  rw [reads_getD, hl] at hr
  simp only [Option.getD_some] at hr
  rw [hf, hg, ← hr, hpar.2.1]
  exact ⟨by simp, hpar.2.2⟩

/-- **C156**.  The association of a label of an image and a label of the laser. -/
theorem association_spec (f : FrameKey) (camera : ℕ) (l : Label) (k : FrameKey × ℕ × List Char × List Char) :
    association f camera l = some k ↔ k.1 = f ∧ k.2.1 = camera ∧ Reads l.id [] k.2.2.1 ∧ ∃ a, l.association = some a ∧ Reads a [] k.2.2.2 := by
  simp only [reads_getD]
  unfold association
  obtain ⟨k1, k2, k3, k4⟩ := k
  simp only [Option.map_eq_some_iff, Prod.mk.injEq]
  constructor
  · rintro ⟨a, h, rfl, rfl, rfl, rfl⟩
    exact ⟨rfl, rfl, rfl, a, h, rfl⟩
  · rintro ⟨rfl, rfl, rfl, a, h, rfl⟩
    exact ⟨a, h, rfl, rfl, rfl, rfl⟩

/-! ## C157: cameras, statistics, calibrations, poses and segmentation -/

theorem item_ok (l : List Num) (i : ℕ) (x : Num) : item l i = .ok x ↔ l[i]? = some x := by
  unfold item
  cases l[i]? with
  | none => simp
  | some y => simp

/-- **C157**.  The calibration of a camera: the first nine numbers by their names, and the other fields. -/
theorem calibration_spec_partial (f : FrameKey) (c : CameraCalibration) (r : Calibration2) :
    calibration f c = .ok r ↔ (∃ rest, c.intrinsic = [r.intrinsic.fu, r.intrinsic.fv, r.intrinsic.cu, r.intrinsic.cv, r.intrinsic.k1,
      r.intrinsic.k2, r.intrinsic.p1, r.intrinsic.p2, r.intrinsic.k3] ++ rest) ∧ r.key.1 = f.segment ∧ Reads c.name 0 r.key.2 ∧
      r.extrinsic = c.extrinsic ∧ Reads c.width 0 r.width ∧ Reads c.height 0 r.height ∧ Reads c.direction 0 r.direction := by
  simp only [reads_getD]
  unfold calibration
  simp only [bind_ok, item_ok, pure_ok]
  constructor
  · rintro ⟨a, h0, b, h1, d, h2, e, h3, g, h4, i, h5, j, h6, k, h7, l, h8, rfl⟩
    refine ⟨?_, rfl, rfl, rfl, rfl, rfl, rfl⟩
    generalize c.intrinsic = q at h0 h1 h2 h3 h4 h5 h6 h7 h8
    match q, h0, h1, h2, h3, h4, h5, h6, h7, h8 with
    | q0 :: q1 :: q2 :: q3 :: q4 :: q5 :: q6 :: q7 :: q8 :: rest, h0, h1, h2, h3, h4, h5, h6, h7, h8 =>
      simp at h0 h1 h2 h3 h4 h5 h6 h7 h8
      subst h0 h1 h2 h3 h4 h5 h6 h7 h8
      exact ⟨rest, rfl⟩
  · obtain ⟨⟨k1, k2⟩, ⟨q0, q1, q2, q3, q4, q5, q6, q7, q8⟩, ex, w, h, d⟩ := r
    rintro ⟨⟨rest, hq⟩, rfl, rfl, rfl, rfl, rfl, rfl⟩
    simp only at hq
    rw [hq]
    exact ⟨_, rfl, _, rfl, _, rfl, _, rfl, _, rfl, _, rfl, _, rfl, _, rfl, _, rfl, rfl⟩

/-- **C157**.  A calibration with fewer than nine numbers is an `IndexError`, and there is no other error. -/
theorem calibration_error (f : FrameKey) (c : CameraCalibration) (e : Err) :
    calibration f c = .error e ↔ e = .index ∧ c.intrinsic.length < 9 := by
  have hi : ∀ {i : ℕ} {e : Err}, item c.intrinsic i = .error e ↔ e = .index ∧ c.intrinsic.length ≤ i := by
    intro i e
    unfold item
    cases h : c.intrinsic[i]? with
    | none => simp [List.getElem?_eq_none_iff.1 h, eq_comm]
    | some y => simp; intro _; exact (List.getElem?_eq_some_iff.1 h).1
  constructor
  · intro h
    unfold calibration at h
    simp only [bind_err, hi, item_ok, pure_err, and_false, exists_false, or_false] at h
    rcases h with h | ⟨_, _, h | ⟨_, _, h | ⟨_, _, h | ⟨_, _, h | ⟨_, _, h | ⟨_, _, h | ⟨_, _, h | ⟨_, _, h⟩⟩⟩⟩⟩⟩⟩⟩ <;> exact ⟨h.1, by omega⟩
  · rintro ⟨rfl, hl⟩
    cases h : calibration f c with
    | ok r =>
      rw [calibration_spec_partial] at h
      obtain ⟨⟨rest, hq⟩, _⟩ := h
      rw [hq] at hl
      simp only [List.length_append, List.length_cons, List.length_nil] at hl
      omega
    | error e =>
      unfold calibration at h
      simp only [bind_err, hi, item_ok, pure_err, and_false, exists_false, or_false] at h
      rcases h with h | ⟨_, _, h | ⟨_, _, h | ⟨_, _, h | ⟨_, _, h | ⟨_, _, h | ⟨_, _, h | ⟨_, _, h | ⟨_, _, h⟩⟩⟩⟩⟩⟩⟩⟩ <;> rw [h.1]

/-- A vector whose numbers may not be set. -/
def ReadsVec (a : Axes) (v : Vec3) : Prop := Reads a.x 0 v.x ∧ Reads a.y 0 v.y ∧ Reads a.z 0 v.z

/-- **C157**.  The component of an image. -/
theorem cameraImage_spec (f : FrameKey) (c : CameraImage) (r : CameraImage2) :
    cameraImage f c = r ↔ r.key.1 = f ∧ Reads c.name 0 r.key.2 ∧ r.image = c.image ∧ r.pose = c.pose ∧ ReadsVec c.linear r.linear ∧
      ReadsVec c.angular r.angular ∧ Reads c.poseTime 0 r.poseTime ∧ Reads c.shutter 0 r.shutter ∧ Reads c.trigger 0 r.trigger ∧
      Reads c.readout 0 r.readout := by
  simp only [reads_getD, ReadsVec]
  obtain ⟨⟨k1, k2⟩, im, po, ⟨l1, l2, l3⟩, ⟨a1, a2, a3⟩, pt, sh, tr, ro⟩ := r
  unfold cameraImage Axes.vec
  constructor
  · intro h
    simp only [CameraImage2.mk.injEq, Prod.mk.injEq, Vec3.mk.injEq] at h
    obtain ⟨⟨h1, h2⟩, h3, h4, ⟨h5, h6, h7⟩, ⟨h8, h9, h10⟩, h11, h12, h13, h14⟩ := h
    exact ⟨h1.symm, h2, h3.symm, h4.symm, ⟨h5, h6, h7⟩, ⟨h8, h9, h10⟩, h11, h12, h13, h14⟩
  · rintro ⟨rfl, rfl, rfl, rfl, ⟨rfl, rfl, rfl⟩, ⟨rfl, rfl, rfl⟩, rfl, rfl, rfl, rfl⟩
    rfl

/-- Counts as two columns: none for no counts. -/
def CountsOf (l : List (Option ℕ × Option ℤ)) (c : Option (List ℕ × List ℤ)) : Prop :=
  (l = [] ∧ c = none) ∨ ∃ ts ns, l ≠ [] ∧ c = some (ts, ns) ∧ List.Forall₂ (fun x t => Reads x.1 0 t) l ts ∧ List.Forall₂ (fun x n => Reads x.2 0 n) l ns

theorem forall₂_map {α β : Type} (g : α → β) (l : List α) (r : List β) : List.Forall₂ (fun x y => g x = y) l r ↔ l.map g = r := by
  induction l generalizing r with
  | nil => cases r <;> simp
  | cons a l ih => cases r <;> simp [ih]

theorem objectCounts_spec (l : List (Option ℕ × Option ℤ)) (c : Option (List ℕ × List ℤ)) : objectCounts l = c ↔ CountsOf l c := by
  unfold objectCounts CountsOf
  simp only [reads_getD, forall₂_map]
  by_cases h : l = []
  · simp [h, eq_comm]
  · rw [if_neg h]
    simp only [h, false_and, ne_eq, not_false_eq_true, true_and, false_or]
    constructor
    · rintro rfl; exact ⟨_, _, rfl, rfl, rfl⟩
    · rintro ⟨ts, ns, rfl, rfl, rfl⟩; rfl

/-- **C157**.  The statistics of a segment. -/
theorem stats_spec (f : FrameKey) (s : Stats) (r : Stats2) :
    stats f s = r ↔ r.key = f ∧ Reads s.timeOfDay [] r.timeOfDay ∧ Reads s.location [] r.location ∧ Reads s.weather [] r.weather ∧
      CountsOf s.laser r.laser ∧ CountsOf s.camera r.camera := by
  simp only [reads_getD, ← objectCounts_spec]
  unfold stats
  constructor
  · rintro rfl; exact ⟨rfl, rfl, rfl, rfl, rfl, rfl⟩
  · obtain ⟨k, a, b, c, d, e⟩ := r
    rintro ⟨rfl, rfl, rfl, rfl, rfl, rfl⟩; rfl

/-- **C157**.  The calibration of a laser: a list of no inclinations is missing. -/
theorem laserCalibration_spec (f : FrameKey) (c : LaserCalibration) (r : LaserCalibration2) :
    laserCalibration f c = r ↔ r.key.1 = f.segment ∧ Reads c.name 0 r.key.2 ∧ r.extrinsic = c.extrinsic ∧ Reads c.min 0 r.min ∧
      Reads c.max 0 r.max ∧ r.values.getD [] = c.inclinations ∧ r.values ≠ some [] := by
  simp only [reads_getD]
  unfold laserCalibration
  constructor
  · rintro rfl
    refine ⟨rfl, rfl, rfl, rfl, rfl, ?_, ?_⟩ <;> by_cases h : c.inclinations = [] <;> simp [h]
  · obtain ⟨⟨k1, k2⟩, ex, mi, ma, v⟩ := r
    rintro ⟨rfl, rfl, rfl, rfl, rfl, h1, h2⟩
    simp only at h1 h2
    cases v with
    | none => simp only [Option.getD_none] at h1; simp [← h1]
    | some v =>
      simp only [Option.getD_some] at h1
      subst h1
      rw [if_neg (by rintro h; exact h2 (by rw [h]))]

theorem mappingLoop_eq (ms : List (Option ℤ × Option ℤ × Option Bool)) : ∀ s, mappingLoop s ms =
    (s.1 ++ ms.map (fun m => m.1.getD 0), s.2.1 ++ ms.map (fun m => m.2.1.getD 0), s.2.2 ++ ms.map (fun m => m.2.2.getD false)) := by
  induction ms with
  | nil => intro s; simp [mappingLoop]
  | cons m ms ih => intro s; simp [mappingLoop, ih]

/-- **C157**.  The segmentation of an image: the three columns have one row for each mapping, in order. -/
theorem segLabel_spec (f : FrameKey) (camera : ℕ) (l : Option SegLabel) (r : SegLabel2) :
    segLabel f camera l = some r ↔ ∃ s, l = some s ∧ r.key = (f, camera) ∧ Reads s.divisor 0 r.divisor ∧ r.image = s.image ∧
      Reads s.sequence [] r.sequence ∧ r.coverage = s.coverage ∧ List.Forall₂ (fun m x => Reads m.1 0 x) s.mapping r.locals ∧
      List.Forall₂ (fun m x => Reads m.2.1 0 x) s.mapping r.globals ∧ List.Forall₂ (fun m x => Reads m.2.2 false x) s.mapping r.tracked := by
  simp only [reads_getD, forall₂_map]
  unfold segLabel
  simp only [Option.map_eq_some_iff, mappingLoop_eq, List.nil_append]
  constructor
  · rintro ⟨s, h, rfl⟩
    exact ⟨s, h, rfl, rfl, rfl, rfl, rfl, rfl, rfl, rfl⟩
  · obtain ⟨k, a, b, c, d, e, g, h⟩ := r
    rintro ⟨s, hs, rfl, rfl, rfl, rfl, rfl, rfl, rfl, rfl⟩
    exact ⟨s, hs, rfl⟩

/-- **C157**.  The pose of a frame is copied. -/
theorem vehiclePose_spec (f g : FrameKey) (t u : List Num) : vehiclePose f t = vehiclePose g u ↔ f = g ∧ t = u := by
  unfold vehiclePose
  simp

theorem vehiclePose_value (f : FrameKey) (t : List Num) : vehiclePose f t = (f, t) := rfl

/-- **C157, violated**.  A calibration with too few numbers is not the documented error, and numbers after the ninth are lost. -/
theorem calibration_violated : calibration ⟨[], 0⟩ { intrinsic := [1, 2, 3, 4] } = .error .index ∧
    calibration ⟨[], 0⟩ { intrinsic := [1, 2, 3, 4, 5, 6, 7, 8, 9] } = calibration ⟨[], 0⟩ { intrinsic := [1, 2, 3, 4, 5, 6, 7, 8, 9, 10] } :=
  ⟨rfl, rfl⟩

theorem example_seg : segLabel ⟨[], 1⟩ 2 (some { divisor := some 1000, mapping := [(some 1, some 7, some true), (some 2, some 9, none)] }) =
    some ⟨(⟨[], 1⟩, 2), 1000, [], [1, 2], [7, 9], [true, false], [], []⟩ := rfl

end Verif.Extract
