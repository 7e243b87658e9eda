import Verif.Model.Challenge

/-!
# Submissions to the motion challenges

C179: what a conversion copies, when it is refused and what the validation accepts.
-/

namespace Verif.Challenge

open Verif.Motion

/-! ### Lists -/

theorem mapM_ok {α β : Type} {f : α → Res β} : ∀ {l : List α} {r : List β},
    l.mapM f = .ok r ↔ List.Forall₂ (fun a b => f a = .ok b) l r
  | [], r => by
    constructor
    · intro h
      cases h
      exact .nil
    · intro h
      cases h
      rfl
  | a :: l, r => by
    rw [List.mapM_cons]
    constructor
    · intro h
      cases ha : f a with
      | error e =>
        rw [ha] at h
        cases h
      | ok b =>
        rw [ha] at h
        cases hl : l.mapM f with
        | error e =>
          rw [hl] at h
          cases h
        | ok bs =>
          rw [hl] at h
          cases h
          exact .cons ha (mapM_ok.1 hl)
    · intro h
      cases h with
      | cons h1 h2 =>
        rw [h1, mapM_ok.2 h2]
        rfl

theorem mapM_total {α β : Type} {f : α → Res β} {ok : α → Prop} (h : ∀ a, (∃ b, f a = .ok b) ↔ ok a) (l : List α) :
    (∃ r, l.mapM f = .ok r) ↔ ∀ a ∈ l, ok a := by
  constructor
  · rintro ⟨r, hr⟩ a ha
    have h2 := mapM_ok.1 hr
    clear hr
    induction h2 with
    | nil => cases ha
    | cons h1 _ ih =>
      rcases List.mem_cons.1 ha with rfl | ha
      · exact (h _).1 ⟨_, h1⟩
      · exact ih ha
  · intro ha
    induction l with
    | nil => exact ⟨[], rfl⟩
    | cons a l ih =>
      obtain ⟨r, hr⟩ := ih fun x hx => ha x (List.mem_cons_of_mem _ hx)
      obtain ⟨b, hb⟩ := (h a).2 (ha a List.mem_cons_self)
      exact ⟨b :: r, mapM_ok.2 (.cons hb (mapM_ok.1 hr))⟩

/-! ### Specification -/

/-- As many first as second coordinates. -/
def Paired (t : Trajectory) : Prop := t.xs.length = t.ys.length

/-- What a submission must be: every trajectory has as many first as second coordinates, and every joint trajectory is of
two objects. -/
def Acceptable (s : Submission) : Prop :=
  (∃ ps, s.set = .single ps ∧ ∀ p ∈ ps, ∀ t ∈ p.trajs, Paired t.trajectory) ∨
    ∃ js, s.set = .joint js ∧ ∀ j ∈ js, j.trajs.length = 2 ∧ ∀ t ∈ j.trajs, Paired t.trajectory

/-- The predictions of a submission, written with its fields alone. -/
def contents : PredSet → List Multi
  | .single ps => ps.map fun p => p.trajs.map fun t => ⟨t.conf, [⟨p.id, t.trajectory.xs, t.trajectory.ys⟩]⟩
  | .joint js => [js.map fun j => ⟨j.conf, j.trajs.map fun t => ⟨t.id, t.trajectory.xs, t.trajectory.ys⟩⟩]
  | .unset => []

/-- An acceptable submission of either kind. -/
theorem acceptable_example : Acceptable ⟨"a", .single [⟨3, [⟨⟨[1], [2]⟩, 1⟩, ⟨⟨[], []⟩, 2⟩]⟩, ⟨4, []⟩]⟩ ∧
    Acceptable ⟨"a", .joint [⟨[⟨3, [1], [2]⟩, ⟨4, [5], [6]⟩], 1⟩]⟩ := by
  constructor
  · left
    exact ⟨_, rfl, by simp [Paired]⟩
  · right
    exact ⟨_, rfl, by simp [Paired]⟩

/-! ### Conversion -/

theorem copyPoints_ok {id : ℤ} {t : Trajectory} {r : Traj} :
    copyPoints id t = .ok r ↔ Paired t ∧ r = ⟨id, t.xs, t.ys⟩ := by
  unfold copyPoints Paired
  split
  · rename_i h
    constructor
    · intro h'
      cases h'
    · intro h'
      exact absurd h'.1 h
  · rename_i h
    have h' : t.xs.length = t.ys.length := not_not.1 h
    constructor
    · intro e
      cases e
      exact ⟨h', rfl⟩
    · rintro ⟨_, rfl⟩
      rfl

theorem convertScored_ok {id : ℤ} {s : Scored} {r : Joint} :
    convertScored id s = .ok r ↔ Paired s.trajectory ∧ r = ⟨s.conf, [⟨id, s.trajectory.xs, s.trajectory.ys⟩]⟩ := by
  unfold convertScored
  cases h : copyPoints id s.trajectory with
  | error e =>
    constructor
    · intro h'
      cases h'
    · rintro ⟨hp, _⟩
      rw [copyPoints_ok.2 ⟨hp, rfl⟩] at h
      cases h
  | ok t =>
    obtain ⟨hp, rfl⟩ := copyPoints_ok.1 h
    constructor
    · intro h'
      cases h'
      exact ⟨hp, rfl⟩
    · rintro ⟨_, rfl⟩
      rfl

theorem mapM_map {α β : Type} {f : α → Res β} {ok : α → Prop} {g : α → β} (h : ∀ a b, f a = .ok b ↔ ok a ∧ b = g a)
    (l : List α) (r : List β) : l.mapM f = .ok r ↔ (∀ a ∈ l, ok a) ∧ r = l.map g := by
  rw [mapM_ok]
  constructor
  · intro h2
    induction h2 with
    | nil => exact ⟨by simp, rfl⟩
    | cons h1 _ ih =>
      obtain ⟨h3, rfl⟩ := (h _ _).1 h1
      refine ⟨?_, by rw [ih.2, List.map_cons]⟩
      intro a ha
      rcases List.mem_cons.1 ha with rfl | ha
      · exact h3
      · exact ih.1 a ha
  · rintro ⟨h1, rfl⟩
    induction l with
    | nil => exact .nil
    | cons a l ih =>
      exact .cons ((h _ _).2 ⟨h1 a List.mem_cons_self, rfl⟩) (ih fun x hx => h1 x (List.mem_cons_of_mem _ hx))

theorem convertScoredJoint_ok {j : ScoredJoint} {r : Joint} : convertScoredJoint j = .ok r ↔
    (j.trajs.length = 2 ∧ ∀ t ∈ j.trajs, Paired t.trajectory) ∧
      r = ⟨j.conf, j.trajs.map fun t => ⟨t.id, t.trajectory.xs, t.trajectory.ys⟩⟩ := by
  unfold convertScoredJoint
  have key := mapM_map (f := fun t : ObjTraj => copyPoints t.id t.trajectory) (ok := fun t => Paired t.trajectory)
    (g := fun t => ⟨t.id, t.trajectory.xs, t.trajectory.ys⟩) (fun a b => copyPoints_ok) j.trajs
  split
  · rename_i h
    constructor
    · intro h'
      cases h'
    · intro h'
      exact absurd h'.1.1 h
  · rename_i h
    have h' : j.trajs.length = 2 := not_not.1 h
    cases hm : j.trajs.mapM fun t => copyPoints t.id t.trajectory with
    | error e =>
      constructor
      · intro h'
        cases h'
      · rintro ⟨⟨_, hp⟩, _⟩
        rw [(key _).2 ⟨hp, rfl⟩] at hm
        cases hm
    | ok ts =>
      obtain ⟨hp, rfl⟩ := (key ts).1 hm
      constructor
      · intro e
        cases e
        exact ⟨⟨h', hp⟩, rfl⟩
      · rintro ⟨_, rfl⟩
        rfl

/-- C179: a conversion succeeds exactly for acceptable submissions, and then the result has the scenario of the submission
and, after the predictions it already had, exactly those of the submission, in order and with their identifiers, points
and confidences. -/
theorem convert_spec (s : Submission) (result r : Preds) : convert s result = .ok r ↔
    Acceptable s ∧ r.scenarioId = s.scenarioId ∧ r.multis = result.multis ++ contents s.set := by
  obtain ⟨sid, set⟩ := s
  obtain ⟨rid, rm⟩ := r
  cases set with
  | unset =>
    constructor
    · intro h
      cases h
    · rintro ⟨⟨_, h, _⟩ | ⟨_, h, _⟩, _⟩ <;> cases h
  | single ps =>
    have key := mapM_map (f := fun p : Single => p.trajs.mapM (convertScored p.id))
      (ok := fun p => ∀ t ∈ p.trajs, Paired t.trajectory)
      (g := fun p => p.trajs.map fun t => ⟨t.conf, [⟨p.id, t.trajectory.xs, t.trajectory.ys⟩]⟩)
      (fun p m => mapM_map (f := convertScored p.id) (ok := fun t => Paired t.trajectory)
        (g := fun t => ⟨t.conf, [⟨p.id, t.trajectory.xs, t.trajectory.ys⟩]⟩) (fun a b => convertScored_ok) p.trajs m) ps
    show convertSingle ps sid result = _ ↔ _
    unfold convertSingle
    cases hm : ps.mapM fun p => p.trajs.mapM (convertScored p.id) with
    | error e =>
      constructor
      · intro h
        cases h
      · rintro ⟨⟨_, h, hp⟩ | ⟨_, h, _⟩, _⟩
        · cases h
          rw [(key _).2 ⟨hp, rfl⟩] at hm
          cases hm
        · cases h
    | ok ms =>
      obtain ⟨hp, rfl⟩ := (key ms).1 hm
      constructor
      · intro h
        cases h
        exact ⟨.inl ⟨_, rfl, hp⟩, rfl, rfl⟩
      · rintro ⟨_, rfl, h⟩
        change rm = _ at h
        rw [h]
        rfl
  | joint js =>
    have key := mapM_map (f := convertScoredJoint) (ok := fun j => j.trajs.length = 2 ∧ ∀ t ∈ j.trajs, Paired t.trajectory)
      (g := fun j => ⟨j.conf, j.trajs.map fun t => ⟨t.id, t.trajectory.xs, t.trajectory.ys⟩⟩)
      (fun a b => convertScoredJoint_ok) js
    show convertJoint js sid result = _ ↔ _
    unfold convertJoint
    cases hm : js.mapM convertScoredJoint with
    | error e =>
      constructor
      · intro h
        cases h
      · rintro ⟨⟨_, h, hp⟩ | ⟨_, h, hp⟩, _⟩
        · cases h
        · cases h
          rw [(key _).2 ⟨hp, rfl⟩] at hm
          cases hm
    | ok ms =>
      obtain ⟨hp, rfl⟩ := (key ms).1 hm
      constructor
      · intro h
        cases h
        exact ⟨.inr ⟨_, rfl, hp⟩, rfl, rfl⟩
      · rintro ⟨_, rfl, h⟩
        change rm = _ at h
        rw [h]
        rfl

/-! ### Validation -/

/-- C179: the validation accepts exactly the predictions with one trajectory in every joint prediction, and for the
interaction challenge those with two in each and at most one set of them. -/
theorem validate_spec (p : Preds) (k : Kind) : validate p k = .ok () ↔
    (k = .motion ∧ ∀ m ∈ p.multis, ∀ j ∈ m, j.trajs.length = 1) ∨
      (k = .interaction ∧ p.multis.length ≤ 1 ∧ ∀ m ∈ p.multis, ∀ j ∈ m, j.trajs.length = 2) := by
  have key : ∀ n : ℕ, (p.multis.any fun m => m.any fun j => decide (j.trajs.length ≠ n)) = true ↔
      ¬ ∀ m ∈ p.multis, ∀ j ∈ m, j.trajs.length = n := by
    intro n
    simp [List.any_eq_true]
  unfold validate
  cases k with
  | unknown => simp
  | motion =>
    simp only [key]
    by_cases h : ∀ m ∈ p.multis, ∀ j ∈ m, j.trajs.length = 1 <;> simp [h]
  | interaction =>
    simp only [key]
    by_cases h1 : p.multis.length ≤ 1
    · have h2 : ¬ 1 < p.multis.length := by omega
      by_cases h : ∀ m ∈ p.multis, ∀ j ∈ m, j.trajs.length = 2
      · simp only [h, h1, h2]
        simp
      · simp only [h, h1, h2]
        simpa using h
    · simp [h1, not_le.1 h1]

/-- C179: what comes out of a conversion into an empty result is valid for the challenge of its kind; of the other kind
only a submission without any trajectory is valid. -/
theorem convert_valid {s : Submission} {empty r : Preds} (h0 : empty.multis = []) (h : convert s empty = .ok r) :
    (∀ ps, s.set = .single ps → validate r .motion = .ok () ∧
      (validate r .interaction = .ok () ↔ ps.length ≤ 1 ∧ ∀ p ∈ ps, p.trajs = [])) ∧
    ∀ js, s.set = .joint js → validate r .interaction = .ok () ∧ (validate r .motion = .ok () ↔ js = []) := by
  obtain ⟨ha, _, hm⟩ := (convert_spec s empty r).1 h
  rw [h0, List.nil_append] at hm
  constructor
  · intro ps hs
    rw [hs] at hm
    constructor
    · rw [validate_spec, hm]
      left
      refine ⟨rfl, fun m hm' j hj => ?_⟩
      obtain ⟨p, _, rfl⟩ := List.mem_map.1 hm'
      obtain ⟨t, _, rfl⟩ := List.mem_map.1 hj
      rfl
    · rw [validate_spec, hm]
      constructor
      · rintro (⟨h', _⟩ | ⟨_, h1, h2⟩)
        · cases h'
        · refine ⟨by simpa [contents] using h1, fun p hp => ?_⟩
          by_contra hne
          obtain ⟨t, ht⟩ := List.exists_mem_of_ne_nil _ hne
          have := h2 _ (List.mem_map_of_mem hp) _ (List.mem_map_of_mem ht)
          simp at this
      · rintro ⟨h1, h2⟩
        right
        refine ⟨rfl, by simpa [contents] using h1, fun m hm' j hj => ?_⟩
        obtain ⟨p, hp, rfl⟩ := List.mem_map.1 hm'
        rw [h2 p hp] at hj
        cases hj
  · intro js hs
    rw [hs] at hm
    have hj2 : ∀ j ∈ js, j.trajs.length = 2 := by
      rcases ha with ⟨_, h', _⟩ | ⟨_, h', h2⟩
      · rw [hs] at h'
        cases h'
      · rw [hs] at h'
        cases h'
        exact fun j hj => (h2 j hj).1
    constructor
    · rw [validate_spec, hm]
      right
      refine ⟨rfl, le_refl _, fun m hm' j hj => ?_⟩
      rw [contents, List.mem_singleton] at hm'
      subst hm'
      obtain ⟨t, ht, rfl⟩ := List.mem_map.1 hj
      simpa using hj2 t ht
    · rw [validate_spec, hm]
      constructor
      · rintro (⟨_, h1⟩ | ⟨h', _⟩)
        · by_contra hne
          obtain ⟨t, ht⟩ := List.exists_mem_of_ne_nil _ hne
          have h3 := h1 _ (List.mem_singleton.2 rfl) _ (List.mem_map_of_mem ht)
          have h4 := hj2 t ht
          rw [List.length_map] at h3
          omega
        · cases h'
      · rintro rfl
        left
        refine ⟨rfl, fun m hm' j hj => ?_⟩
        rw [contents, List.mem_singleton] at hm'
        subst hm'
        cases hj

/-! ### What is kept -/

theorem joint_inj {js js' : List ScoredJoint} (h : contents (.joint js) = contents (.joint js')) : js = js' := by
  have h1 := (List.cons.inj h).1
  refine List.map_injective_iff.2 ?_ h1
  rintro ⟨a, c⟩ ⟨a', c'⟩ h2
  obtain ⟨h3, h4⟩ := Joint.mk.inj h2
  cases h3
  congr
  refine List.map_injective_iff.2 ?_ h4
  rintro ⟨i, x, y⟩ ⟨i', x', y'⟩ h5
  cases h5
  rfl

theorem single_inj {ps ps' : List Single} (hp : ∀ p ∈ ps, p.trajs ≠ []) (hp' : ∀ p ∈ ps', p.trajs ≠ [])
    (h : contents (.single ps) = contents (.single ps')) : ps = ps' := by
  induction ps generalizing ps' with
  | nil =>
    cases ps' with
    | nil => rfl
    | cons => cases h
  | cons p ps ih =>
    cases ps' with
    | nil => cases h
    | cons p' ps' =>
      obtain ⟨h1, h2⟩ := List.cons.inj h
      have hrest := ih (fun q hq => hp q (List.mem_cons_of_mem _ hq)) (fun q hq => hp' q (List.mem_cons_of_mem _ hq)) h2
      have hid : p.id = p'.id := by
        have ha := hp p List.mem_cons_self
        have hb := hp' p' List.mem_cons_self
        cases hx : p.trajs with
        | nil => exact absurd hx ha
        | cons t ts =>
          cases hy : p'.trajs with
          | nil => exact absurd hy hb
          | cons t' ts' =>
            dsimp only at h1
            rw [hx, hy] at h1
            have h3 := (List.cons.inj h1).1
            have h4 := (Joint.mk.inj h3).2
            exact (Traj.mk.inj (List.cons.inj h4).1).1
      have htr : p.trajs = p'.trajs := by
        dsimp only at h1
        rw [hid] at h1
        refine List.map_injective_iff.2 ?_ h1
        rintro ⟨⟨x, y⟩, c⟩ ⟨⟨x', y'⟩, c'⟩ h5
        cases h5
        rfl
      obtain ⟨i, t⟩ := p
      obtain ⟨i', t'⟩ := p'
      cases hid
      cases htr
      rw [hrest]

/-- C179, where every object is given a trajectory: two submissions of the same kind that convert to the same predictions
are the same, so nothing is lost. -/
theorem convert_inj_partial {s s' : Submission} {empty r : Preds} (h0 : empty.multis = [])
    (hk : (∃ ps ps', s.set = .single ps ∧ s'.set = .single ps' ∧ (∀ p ∈ ps, p.trajs ≠ []) ∧ ∀ p ∈ ps', p.trajs ≠ []) ∨
      ∃ js js', s.set = .joint js ∧ s'.set = .joint js')
    (h : convert s empty = .ok r) (h' : convert s' empty = .ok r) : s = s' := by
  obtain ⟨_, h1, h2⟩ := (convert_spec s empty r).1 h
  obtain ⟨_, h1', h2'⟩ := (convert_spec s' empty r).1 h'
  rw [h0, List.nil_append] at h2 h2'
  obtain ⟨i, a⟩ := s
  obtain ⟨i', a'⟩ := s'
  have hi : i = i' := h1.symm.trans h1'
  have hc : contents a = contents a' := h2.symm.trans h2'
  subst hi
  rcases hk with ⟨ps, ps', rfl, rfl, hp, hp'⟩ | ⟨js, js', rfl, rfl⟩
  · rw [single_inj hp hp' hc]
  · rw [joint_inj hc]

/-- C179 is violated: an object without trajectories is converted without its identifier, so predictions for two different
objects become the same. -/
theorem convert_inj_violated : ∃ (s s' : Submission) (r : Preds), s ≠ s' ∧ convert s ⟨"", []⟩ = .ok r ∧
    convert s' ⟨"", []⟩ = .ok r := by
  refine ⟨⟨"a", .single [⟨1, []⟩]⟩, ⟨"a", .single [⟨2, []⟩]⟩, ⟨"a", [[]]⟩, ?_, ?_, ?_⟩
  · intro h
    have := PredSet.single.inj (Submission.mk.inj h).2
    simp at this
  · exact (convert_spec _ _ _).2 ⟨.inl ⟨_, rfl, by simp⟩, rfl, rfl⟩
  · exact (convert_spec _ _ _).2 ⟨.inl ⟨_, rfl, by simp⟩, rfl, rfl⟩

/-- C179 is violated: a second conversion into the same result keeps the predictions of the first and gives them the
scenario of the second; for the interaction challenge the outcome is refused although both submissions are in order. -/
theorem convert_again_violated : ∃ (s s' : Submission) (r r' : Preds), s.scenarioId ≠ s'.scenarioId ∧
    convert s ⟨"", []⟩ = .ok r ∧ validate r .interaction = .ok () ∧ convert s' r = .ok r' ∧
    r'.scenarioId = s'.scenarioId ∧ r'.multis = contents s.set ++ contents s'.set ∧
    validate r' .interaction ≠ .ok () := by
  refine ⟨⟨"a", .joint []⟩, ⟨"b", .joint []⟩, ⟨"a", [[]]⟩, ⟨"b", [[], []]⟩, by decide, ?_, ?_, ?_, rfl, rfl, ?_⟩
  · exact (convert_spec _ _ _).2 ⟨.inr ⟨_, rfl, by simp⟩, rfl, rfl⟩
  · exact (validate_spec _ _).2 (.inr ⟨rfl, le_refl _, by simp⟩)
  · exact (convert_spec _ _ _).2 ⟨.inr ⟨_, rfl, by simp⟩, rfl, rfl⟩
  · rw [Ne, validate_spec]
    simp

/-- C179 is violated: "interactive submissions must have a single MultiModalPrediction", but none at all is accepted. -/
theorem validate_none_violated : validate ⟨"a", []⟩ .interaction = .ok () ∧ ([] : List Multi).length ≠ 1 :=
  ⟨(validate_spec _ _).2 (.inr ⟨rfl, by simp, by simp⟩), by decide⟩

/-! ### What the metrics then ask for -/

theorem validateMultiLoop_single (size : ℤ) (id : ℤ) (ts : List Scored) (ids out : List ℤ) (hids : ids = [] ∨ ids = [id]) :
    (∃ r, validateMultiLoop size (ts.map fun t => ⟨t.conf, [⟨id, t.trajectory.xs, t.trajectory.ys⟩]⟩) ids out = .ok r) ↔
      ∀ t ∈ ts, (t.trajectory.xs.length : ℤ) = size ∧ (t.trajectory.ys.length : ℤ) = size := by
  induction ts generalizing ids out with
  | nil => exact ⟨fun _ => by simp, fun _ => ⟨out, rfl⟩⟩
  | cons t ts ih =>
    rw [List.map_cons, validateMultiLoop]
    by_cases ht : (t.trajectory.xs.length : ℤ) = size ∧ (t.trajectory.ys.length : ℤ) = size
    · rw [if_neg (by simpa using ht)]
      have he : (if ids.isEmpty then [id] else ids) = [id] := by
        rcases hids with rfl | rfl <;> rfl
      show (∃ r, (if sameSet [id] (if ids.isEmpty then [id] else ids) then _ else _) = _) ↔ _
      rw [he, if_pos (by simp [sameSet])]
      rw [List.forall_mem_cons]
      refine Iff.trans ?_ (Iff.trans (ih [id] (out ++ [id]) (.inr rfl)) ?_)
      · show (∃ r, validateMultiLoop size _ (if ids.isEmpty then [id] else ids) (out ++ [id]) = _) ↔ _
        rw [he]
      · exact ⟨fun h => ⟨ht, h⟩, fun h => h.2⟩
    · rw [if_pos (by
        rw [List.any_eq_true]
        exact ⟨_, List.mem_singleton.2 rfl, by
          rw [decide_eq_true_eq]
          by_contra hn
          push Not at hn
          exact ht hn⟩)]
      constructor
      · rintro ⟨r, hr⟩
        cases hr
      · intro h
        exact absurd (h t List.mem_cons_self) ht

/-- C179: the predictions for one object are in order for the metrics exactly if every trajectory has the number of points
the configuration asks for; the identifiers always agree. -/
theorem single_metrics (size : ℤ) (p : Single) (out : List ℤ) :
    (∀ m, contents (.single [p]) = [m] → ((∃ r, validateMulti size m out = .ok r) ↔
      ∀ t ∈ p.trajs, (t.trajectory.xs.length : ℤ) = size ∧ (t.trajectory.ys.length : ℤ) = size)) ∧
    ∃ m, contents (.single [p]) = [m] := by
  refine ⟨?_, _, rfl⟩
  intro m hm
  cases hm
  exact validateMultiLoop_single size p.id p.trajs [] out (.inl rfl)

end Verif.Challenge
