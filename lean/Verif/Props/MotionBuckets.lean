import Verif.Props.MotionType
import Mathlib.Tactic.IntervalCases

/-!
Property C223: the bucket of the mean average precision a prediction counts in.  Also C29 for predictions of one point.
-/

namespace Verif.Motion

/-- The documented order of the shapes, the one with the greatest priority last (motion_metrics.cc:53-64). -/
def shapeOrder : List TrajType :=
  [.stationary, .straight, .straightRight, .straightLeft, .rightTurn, .leftTurn, .leftUTurn, .rightUTurn]

/-- The documented order of the buckets (motion_metrics_utils.h:33-42). -/
def bucketOrder : List TrajType :=
  [.stationary, .straight, .straightLeft, .straightRight, .leftUTurn, .leftTurn, .rightUTurn, .rightTurn]

/-- The shape of the future of a track: of the way from its state at the prediction time to its last valid state. -/
def HasShape (c : Cfg) (tk : Track) (ty : TrajType) : Prop :=
  ∃ (h i : ℕ) (s e : State), c.history = h ∧ h < i ∧ tk.states[h]? = some s ∧ s.valid ∧ tk.states[i]? = some e ∧
    e.valid ∧ (∀ (k : ℕ) (x : State), i < k → tk.states[k]? = some x → ¬ x.valid) ∧
    ∀ ahead left, Relative s e ahead left → HasType s e ahead left ty

/-- A track without a shape: it is not valid at the prediction time, or at no later one. -/
def NoShape (c : Cfg) (tk : Track) : Prop :=
  (∃ (h : ℕ) (s : State), c.history = h ∧ tk.states[h]? = some s ∧ ¬ s.valid) ∨
    ∀ (k : ℕ) (x : State), c.history < k → tk.states[k]? = some x → ¬ x.valid

/-- No two shapes share a bucket, and every shape has one. -/
theorem index_spec (ty : TrajType) : bucketOrder[ty.index]? = some ty ∧ ty.index < numTypes ∧
    numTypes = bucketOrder.length := by
  cases ty <;> exact ⟨rfl, by decide, rfl⟩

theorem index_injective {a b : TrajType} (h : a.index = b.index) : a = b := by
  have h1 := (index_spec a).1
  rw [h, (index_spec b).1] at h1
  exact (Option.some.inj h1).symm

theorem priority_spec (ty : TrajType) : shapeOrder[ty.priority]? = some ty ∧ ty.priority = shapeOrder.idxOf ty := by
  cases ty <;> exact ⟨rfl, by decide⟩

theorem at'_inv {α : Type} {l : List α} {i : ℤ} {a : α} (h : at' l i = .ok a) : ∃ n : ℕ, i = n ∧ l[n]? = some a := by
  unfold at' at h
  split at h
  · simp at h
  · refine ⟨i.toNat, by omega, ?_⟩
    cases hx : l[i.toNat]? with
    | none => rw [hx] at h; simp at h
    | some b => rw [hx] at h; simp at h; rw [h]

theorem lastValid_some {states : List State} {step : ℤ} {i : ℕ} (h : lastValid states step = some i) :
    step < i ∧ (∃ e, states[i]? = some e ∧ e.valid) ∧ ∀ (k : ℕ) (x : State), i < k → states[k]? = some x → ¬ x.valid := by
  unfold lastValid at h
  rw [List.find?_eq_some_iff_append] at h
  obtain ⟨hp, as, bs, heq, hno⟩ := h
  simp only [Bool.and_eq_true, decide_eq_true_eq] at hp
  refine ⟨hp.1, ?_, ?_⟩
  · cases hx : states[i]? with
    | none => rw [hx] at hp; simp at hp
    | some e => rw [hx] at hp; exact ⟨e, rfl, hp.2⟩
  · intro k x hk hx hv
    have hlen : k < states.length := (List.getElem?_eq_some_iff.mp hx).1
    have hmem : k ∈ (List.range states.length).reverse := by simp [hlen]
    have hsorted : ((List.range states.length).reverse).Pairwise (· > ·) := by
      rw [List.pairwise_reverse]
      exact List.pairwise_lt_range
    rw [heq] at hmem hsorted
    rcases List.mem_append.mp hmem with hm | hm
    · have := hno k hm
      rw [hx] at this
      simp only [Bool.not_eq_eq_eq_not, Bool.not_true, Bool.and_eq_false_iff, decide_eq_false_iff_not] at this
      rcases this with h1 | h1
      · omega
      · rw [hv] at h1; simp at h1
    · rcases List.mem_cons.mp hm with rfl | hm
      · omega
      · have := (List.pairwise_cons.mp (List.pairwise_append.mp hsorted).2.1).1 k hm
        omega

theorem lastValid_none {states : List State} {step : ℤ} (h : lastValid states step = none) (k : ℕ) (x : State)
    (hk : step < k) (hx : states[k]? = some x) : ¬ x.valid := by
  unfold lastValid at h
  rw [List.find?_eq_none] at h
  have := h k (by simp [(List.getElem?_eq_some_iff.mp hx).1])
  rw [hx] at this
  intro hv
  simp [hk, hv] at this

/-- C223: a track that can be classified gets the shape of its future. -/
theorem classifyTrack_shape {c : Cfg} {tk : Track} {o : Option TrajType} (h : classifyTrack c.history tk = .ok o) :
    match o with
    | some ty => HasShape c tk ty
    | none => NoShape c tk := by
  unfold classifyTrack at h
  cases hl : lastValid tk.states c.history with
  | none =>
    rw [hl] at h
    simp only [Except.ok.injEq] at h
    subst h
    exact Or.inr fun k x hk hx => lastValid_none hl k x hk hx
  | some i =>
    obtain ⟨h1, ⟨e, he, hev⟩, h3⟩ := lastValid_some hl
    rw [hl] at h
    cases ha : at' tk.states c.history with
    | error er => simp only [ha, bind, Except.bind] at h; simp at h
    | ok s =>
      obtain ⟨n, hn, hs⟩ := at'_inv ha
      simp only [ha, bind, Except.bind] at h
      by_cases hv : s.valid = true
      · rw [if_pos hv, at'_nat he] at h
        simp only [pure, Except.pure, Except.ok.injEq] at h
        subst h
        exact ⟨n, i, s, e, hn, by omega, hs, hv, he, hev, h3, fun _ _ hr => classify_has hr⟩
      · rw [if_neg hv] at h
        simp only [pure, Except.pure, Except.ok.injEq] at h
        subst h
        exact Or.inl ⟨n, s, hn, hs, by simpa using hv⟩

/-- A track has no two shapes, and a shape only if it can be classified. -/
theorem hasShape_unique {c : Cfg} {tk : Track} {a b : TrajType} (ha : HasShape c tk a) (hb : HasShape c tk b) :
    a = b := by
  obtain ⟨h, i, s, e, h1, h2, h3, _, h4, h4v, h5, h6⟩ := ha
  obtain ⟨h', i', s', e', h1', h2', h3', _, h4', h4v', h5', h6'⟩ := hb
  have : h = h' := by omega
  subst this
  have hi : i = i' := by
    rcases lt_trichotomy i i' with hlt | heq | hgt
    · exact absurd h4v' (h5 _ _ hlt h4')
    · exact heq
    · exact absurd h4v (h5' _ _ hgt h4)
  subst hi
  rw [h3] at h3'
  rw [h4] at h4'
  obtain ⟨p, hp, _⟩ := relative_exists s e
  obtain rfl := Option.some.inj h3'
  obtain rfl := Option.some.inj h4'
  exact hasType_unique (h6 _ _ hp) (h6' _ _ hp)

theorem hasShape_noShape {c : Cfg} {tk : Track} {a : TrajType} (ha : HasShape c tk a) : ¬ NoShape c tk := by
  obtain ⟨h, i, s, e, h1, h2, h3, hv, h4, h4v, h5, h6⟩ := ha
  rintro (⟨h', s', h1', h3', hv'⟩ | hn)
  · have : h = h' := by omega
    subst this
    rw [h3] at h3'
    obtain rfl := Option.some.inj h3'
    exact hv' hv
  · exact hn i e (by omega) h4 h4v

/-- `a` comes before `b` in the documented order, or is the same. -/
def Upto (a b : TrajType) : Prop := shapeOrder.idxOf a ≤ shapeOrder.idxOf b

instance (a b : TrajType) : Decidable (Upto a b) := inferInstanceAs (Decidable (_ ≤ _))

theorem upto_iff (a b : TrajType) : Upto a b ↔ a.priority ≤ b.priority := by
  unfold Upto
  rw [(priority_spec a).2, (priority_spec b).2]

theorem getTrack_inv {m : Tracks} {id : ℤ} {tk : Track} (h : getTrack m id = .ok tk) : trackOf m id = some tk := by
  unfold getTrack at h
  unfold trackOf
  cases hf : m.find? fun e => e.1 == id with
  | none => rw [hf] at h; simp at h
  | some e =>
    rw [hf] at h
    simp only [Except.ok.injEq] at h
    simp [h]

theorem typeLoop_shapes {c : Cfg} {m : Tracks} : ∀ {l : List Traj} {st r : TrajType × Bool}, typeLoop c m l st = .ok r →
    Upto st.1 r.1 ∧
    (r.2 = true ↔ st.2 = true ∨ ∃ t ∈ l, ∃ tk ty, trackOf m t.id = some tk ∧ HasShape c tk ty) ∧
    (∀ t ∈ l, ∃ tk, trackOf m t.id = some tk ∧ (NoShape c tk ∨ ∃ ty, HasShape c tk ty ∧ Upto ty r.1)) ∧
    (r.1 = st.1 ∨ ∃ t ∈ l, ∃ tk, trackOf m t.id = some tk ∧ HasShape c tk r.1) := by
  intro l
  induction l with
  | nil =>
    intro st r h
    simp only [typeLoop, Except.ok.injEq] at h
    subst h
    refine ⟨le_refl _, by simp, by simp, Or.inl rfl⟩
  | cons t rest ih =>
    intro st r h
    unfold typeLoop at h
    cases hg : getTrack m t.id with
    | error e => simp only [hg, bind, Except.bind] at h; simp at h
    | ok tk =>
      have htk := getTrack_inv hg
      cases hc : classifyTrack c.history tk with
      | error e => simp only [hg, hc, bind, Except.bind] at h; simp at h
      | ok o =>
        have hs := classifyTrack_shape hc
        simp only [hg, hc, bind, Except.bind] at h
        cases o with
        | none =>
          simp only at h hs
          obtain ⟨i1, i2, i3, i4⟩ := ih h
          refine ⟨i1, ?_, ?_, ?_⟩
          · rw [i2]
            constructor
            · rintro (h1 | ⟨t', h1, h2⟩)
              · exact Or.inl h1
              · exact Or.inr ⟨t', by simp [h1], h2⟩
            · rintro (h1 | ⟨t', h1, tk', ty, h2, h3⟩)
              · exact Or.inl h1
              · rcases List.mem_cons.mp h1 with rfl | h1
                · rw [htk] at h2
                  obtain rfl := Option.some.inj h2
                  exact absurd hs (hasShape_noShape h3)
                · exact Or.inr ⟨t', h1, tk', ty, h2, h3⟩
          · intro t' ht'
            rcases List.mem_cons.mp ht' with rfl | ht'
            · exact ⟨tk, htk, Or.inl hs⟩
            · exact i3 t' ht'
          · rcases i4 with h1 | ⟨t', h1, h2⟩
            · exact Or.inl h1
            · exact Or.inr ⟨t', by simp [h1], h2⟩
        | some ty =>
          simp only at h hs
          obtain ⟨i1, i2, i3, i4⟩ := ih h
          rw [upto_iff] at i1
          simp only at i1 i2 i4
          have hup : Upto st.1 r.1 ∧ Upto ty r.1 := by
            rw [upto_iff, upto_iff]
            split at i1 <;> constructor <;> omega
          refine ⟨hup.1, ?_, ?_, ?_⟩
          · rw [i2]
            simp only [true_or, true_iff]
            exact Or.inr ⟨t, by simp, tk, ty, htk, hs⟩
          · intro t' ht'
            rcases List.mem_cons.mp ht' with rfl | ht'
            · exact ⟨tk, htk, Or.inr ⟨ty, hs, hup.2⟩⟩
            · exact i3 t' ht'
          · rcases i4 with h1 | ⟨t', h1, h2⟩
            · split at h1
              · exact Or.inr ⟨t, by simp, tk, htk, h1 ▸ hs⟩
              · exact Or.inl h1
            · exact Or.inr ⟨t', by simp [h1], h2⟩

/-- The bucket of a shape: right U-turns count as right turns. -/
def bucketOf : TrajType → TrajType
  | .rightUTurn => .rightTurn
  | ty => ty

/-- `ty` is the shape of the future of an object of the first joint prediction, and none of them has a shape of greater
priority. -/
def LeadingShape (c : Cfg) (m : Tracks) (j : Joint) (ty : TrajType) : Prop :=
  (∃ t ∈ j.trajs, ∃ tk, trackOf m t.id = some tk ∧ HasShape c tk ty) ∧
    ∀ t ∈ j.trajs, ∀ tk, trackOf m t.id = some tk → ∀ ty', HasShape c tk ty' → Upto ty' ty

theorem leadingShape_unique {c : Cfg} {m : Tracks} {j : Joint} {a b : TrajType} (ha : LeadingShape c m j a)
    (hb : LeadingShape c m j b) : a = b := by
  obtain ⟨⟨t, ht, tk, h1, h2⟩, h3⟩ := ha
  obtain ⟨⟨t', ht', tk', h1', h2'⟩, h3'⟩ := hb
  have hab := (upto_iff _ _).mp (h3' t ht tk h1 a h2)
  have hba := (upto_iff _ _).mp (h3 t' ht' tk' h1' b h2')
  have e : a.priority = b.priority := by omega
  have := (priority_spec a).1
  rw [e, (priority_spec b).1] at this
  exact (Option.some.inj this).symm

/-- C223: the statistics of a prediction are in the bucket of the leading shape and in no other; there are none if no
object of the prediction has a shape. -/
theorem mapStats_bucket {c : Cfg} {m : Tracks} {sc : StepCfg} {j : Joint} {rest : Multi} {soft : Bool} {r : MapStats}
    (h : mapStats c m sc (j :: rest) soft = .ok r) : r.length = bucketOrder.length ∧
    ((∃ ty s, LeadingShape c m j ty ∧ bucketStats c m sc (j :: rest) soft = .ok s ∧
        ∀ (i : ℕ) (b : TrajType), bucketOrder[i]? = some b → r[i]? = some (if b = bucketOf ty then s else PStats.zero)) ∨
      ((∀ t ∈ j.trajs, ∃ tk, trackOf m t.id = some tk ∧ NoShape c tk) ∧ ∀ s ∈ r, s = PStats.zero)) := by
  have hzero : ∀ s ∈ List.replicate numTypes PStats.zero, s = PStats.zero := fun s hs => List.eq_of_mem_replicate hs
  have hb : ∀ (i : ℕ) (b : TrajType), bucketOrder[i]? = some b → i = b.index := by
    intro i b hi
    have hlt : i < 8 := (List.getElem?_eq_some_iff.mp hi).1
    interval_cases i <;> (simp only [bucketOrder] at hi; obtain rfl := Option.some.inj hi; rfl)
  unfold mapStats at h
  simp only at h
  split at h
  · rename_i he
    simp only [Except.ok.injEq] at h
    subst h
    refine ⟨by simp [numTypes, bucketOrder], Or.inr ⟨?_, hzero⟩⟩
    rw [List.isEmpty_iff] at he
    simp [he]
  · cases ht : typeLoop c m j.trajs (.stationary, false) with
    | error e => simp only [ht, bind, Except.bind] at h; simp at h
    | ok p =>
      obtain ⟨ty, found⟩ := p
      obtain ⟨h1, h2, h3, h4⟩ := typeLoop_shapes ht
      simp only [ht, bind, Except.bind] at h
      simp only [Bool.false_eq_true, false_or] at h1 h2 h3 h4
      cases found with
      | false =>
        simp only [Bool.false_eq_true, if_false, pure, Except.pure, Except.ok.injEq] at h
        subst h
        refine ⟨by simp [numTypes, bucketOrder], Or.inr ⟨?_, hzero⟩⟩
        intro t htm
        obtain ⟨tk, htk, hs⟩ := h3 t htm
        refine ⟨tk, htk, ?_⟩
        rcases hs with hs | ⟨ty', hs, _⟩
        · exact hs
        · exact absurd (h2.mpr ⟨t, htm, tk, ty', htk, hs⟩) (by simp)
      | true =>
        simp only [if_true] at h
        cases hst : bucketStats c m sc (j :: rest) soft with
        | error e => simp only [hst] at h; simp at h
        | ok s =>
          simp only [hst, pure, Except.pure, Except.ok.injEq] at h
          subst h
          refine ⟨by simp [singleBucket, numTypes, bucketOrder], Or.inl ⟨ty, s, ⟨?_, ?_⟩, rfl, ?_⟩⟩
          · rcases h4 with rfl | h4
            · obtain ⟨t, htm, tk, ty', htk, hs⟩ := h2.mp rfl
              refine ⟨t, htm, tk, htk, ?_⟩
              obtain ⟨tk', htk', hs'⟩ := h3 t htm
              rw [htk] at htk'
              obtain rfl := Option.some.inj htk'
              rcases hs' with hs' | ⟨ty'', hs', hu⟩
              · exact absurd hs' (hasShape_noShape hs)
              · have : ty'' = .stationary := by
                  unfold Upto at hu
                  cases ty'' <;> first | rfl | (exact absurd hu (by decide))
                exact this ▸ hs'
            · exact h4
          · intro t htm tk htk ty' hs
            obtain ⟨tk', htk', hs'⟩ := h3 t htm
            rw [htk] at htk'
            obtain rfl := Option.some.inj htk'
            rcases hs' with hs' | ⟨ty'', hs', hu⟩
            · exact absurd hs' (hasShape_noShape hs)
            · exact hasShape_unique hs' hs ▸ hu
          · intro i b hi
            have hib := hb i b hi
            have hlt : i < numTypes := hib ▸ (index_spec b).2.1
            have hbk : (if ty = .rightUTurn then TrajType.rightTurn else ty) = bucketOf ty := by cases ty <;> rfl
            unfold singleBucket
            rw [hbk, List.getElem?_set]
            by_cases hEq : b = bucketOf ty
            · subst hEq
              rw [if_pos hib.symm, if_pos (by simpa [hib] using hlt), if_pos rfl]
            · rw [if_neg (fun hx => hEq (index_injective (by omega))), if_neg hEq, List.getElem?_replicate,
                if_pos hlt]

/-- Another object that turns to the left. -/
noncomputable def turningTrack : Track :=
  ⟨8, .vehicle, [⟨0, 0, 0, 5, 0, 4, 2, true⟩, ⟨10, 10, Real.pi / 2, 0, 5, 4, 2, true⟩]⟩

/-- C223: of an object that stays and one that turns to the left, the turn leads. -/
theorem leadingShape_example (a b : List ℝ) :
    LeadingShape exampleCfg [(7, exampleTrack), (8, turningTrack)] ⟨1, [⟨7, a, b⟩, ⟨8, a, b⟩]⟩ .leftTurn := by
  have h8 : HasShape exampleCfg turningTrack .leftTurn := by
    refine ⟨0, 1, _, _, rfl, by omega, rfl, rfl, rfl, rfl, ?_, fun _ _ hr => (classify_spec hr _).mp example_left_turn⟩
    intro k x hk hx
    have := (List.getElem?_eq_some_iff.mp hx).1
    simp only [turningTrack, List.length_cons, List.length_nil] at this
    omega
  have h7 : HasShape exampleCfg exampleTrack .stationary := by
    refine ⟨0, 2, _, _, rfl, by omega, rfl, rfl, rfl, rfl, ?_, fun _ _ _ => ?_⟩
    · intro k x hk hx
      have := (List.getElem?_eq_some_iff.mp hx).1
      simp only [exampleTrack, List.length_cons, List.length_nil] at this
      omega
    · simp [HasType, Stays]
  refine ⟨⟨⟨8, a, b⟩, by simp, turningTrack, rfl, h8⟩, ?_⟩
  intro t ht tk htk ty hty
  simp only [List.mem_cons, List.not_mem_nil, or_false] at ht
  rcases ht with rfl | rfl
  · have : tk = exampleTrack := (Option.some.inj htk).symm
    subst this
    rw [hasShape_unique hty h7]
    decide
  · have : tk = turningTrack := (Option.some.inj htk).symm
    subst this
    rw [hasShape_unique hty h8]
    decide

/-! ### Predictions of one point -/

/-- A corner of a box: `a` and `b` are one or minus one. -/
noncomputable def Box.corner (q : Box) (a b : ℝ) : ℝ × ℝ :=
  (q.x + a * (q.length / 2) * Real.cos q.heading - b * (q.width / 2) * Real.sin q.heading,
    q.y + a * (q.length / 2) * Real.sin q.heading + b * (q.width / 2) * Real.cos q.heading)

/-- The corners of a box lie on both sides of, or on, both axes. -/
def Straddles (q : Box) : Prop :=
  ∀ f ∈ [Prod.fst, Prod.snd], (∃ a ∈ [(1 : ℝ), -1], ∃ b ∈ [(1 : ℝ), -1], f (q.corner a b) ≤ 0) ∧
    ∃ a ∈ [(1 : ℝ), -1], ∃ b ∈ [(1 : ℝ), -1], 0 ≤ f (q.corner a b)

theorem abs_le_sum (x u v : ℝ) : |x| ≤ |u| + |v| ↔
    (∃ a ∈ [(1 : ℝ), -1], ∃ b ∈ [(1 : ℝ), -1], x + a * u + b * v ≤ 0) ∧
      ∃ a ∈ [(1 : ℝ), -1], ∃ b ∈ [(1 : ℝ), -1], 0 ≤ x + a * u + b * v := by
  simp only [List.mem_cons, List.not_mem_nil, or_false, exists_eq_or_imp, exists_eq_left]
  constructor
  · intro h
    rcases abs_cases x with ⟨hx, _⟩ | ⟨hx, _⟩ <;> rcases abs_cases u with ⟨hu, _⟩ | ⟨hu, _⟩ <;>
      rcases abs_cases v with ⟨hv, _⟩ | ⟨hv, _⟩ <;> rw [hx, hu, hv] at h
    all_goals
      constructor <;>
      first
      | exact Or.inl (Or.inl (by linarith))
      | exact Or.inl (Or.inr (by linarith))
      | exact Or.inr (Or.inl (by linarith))
      | exact Or.inr (Or.inr (by linarith))
  · rintro ⟨h1, h2⟩
    have hu1 := le_abs_self u
    have hu2 := neg_abs_le u
    have hv1 := le_abs_self v
    have hv2 := neg_abs_le v
    rw [abs_le]
    constructor
    · rcases h2 with (h2 | h2) | (h2 | h2) <;> linarith
    · rcases h1 with (h1 | h1) | (h1 | h1) <;> linarith

theorem containsOrigin_iff (q : Box) : containsOrigin q ↔ Straddles q := by
  unfold containsOrigin Straddles
  have h1 := abs_le_sum q.x (q.length / 2 * Real.cos q.heading) (-(q.width / 2 * Real.sin q.heading))
  have h2 := abs_le_sum q.y (q.length / 2 * Real.sin q.heading) (q.width / 2 * Real.cos q.heading)
  rw [abs_neg] at h1
  have e1 : ∀ a b : ℝ, q.x + a * (q.length / 2 * Real.cos q.heading) + b * -(q.width / 2 * Real.sin q.heading) =
      (q.corner a b).1 := fun a b => by simp only [Box.corner]; ring
  have e2 : ∀ a b : ℝ, q.y + a * (q.length / 2 * Real.sin q.heading) + b * (q.width / 2 * Real.cos q.heading) =
      (q.corner a b).2 := fun a b => by simp only [Box.corner]; ring
  simp only [e1] at h1
  simp only [e2] at h2
  rw [h1, h2]
  simp

open Classical in
theorem anyM_straddles {f : Track → Res Bool} {p : Track → Prop} : ∀ {l : List Track},
    (∀ tk ∈ l, f tk = if p tk then .error .crash else .ok false) →
    l.anyM f = if ∃ tk ∈ l, p tk then .error .crash else .ok false := by
  intro l
  induction l with
  | nil => intro _; simp [List.anyM]; rfl
  | cons a rest ih =>
    intro h
    have ha := h a (by simp)
    have hr := ih (fun tk htk => h tk (by simp [htk]))
    unfold List.anyM
    rw [ha]
    by_cases hp : p a
    · rw [if_pos hp, if_pos ⟨a, by simp, hp⟩]
      rfl
    · rw [if_neg hp]
      simp only [bind, Except.bind]
      rw [hr]
      congr 1
      simp [hp]

open Classical in
/-- C29 for predictions of one point: the prediction has no box, and the evaluation fails exactly if the box of another
tested object that is valid at the step straddles the origin of the coordinates. -/
theorem overlapsStep_one_point (overlaps : Box → Box → Bool) {c : Cfg} {m : Tracks} {tested : List Track} {t : Traj}
    {tk : Track} (hx : t.xs.length = 1) (hy : 0 < t.ys.length) (ht : trackOf m t.id = some tk)
    (hs : ∀ o ∈ tested, ∃ s, at' o.states (toTrackStep c 0) = .ok s) :
    overlapsStep overlaps c m tested t 0 =
      if ∃ o ∈ tested, o.id ≠ tk.id ∧ ∃ s, at' o.states (toTrackStep c 0) = .ok s ∧ s.valid ∧ Straddles (stateBox s)
      then .error .crash else .ok false := by
  obtain ⟨x, hx'⟩ := at'_ok (l := t.xs) (i := 0) (le_refl _) (by omega)
  obtain ⟨y, hy'⟩ := at'_ok (l := t.ys) (i := 0) (le_refl _) (by omega)
  have hpb : predictionBox c t ((0 : ℕ) : ℤ) tk = .ok none := by
    unfold predictionBox
    simp [hx'.1, hy'.1, hx, bind, Except.bind, pure, Except.pure]
  unfold overlapsStep
  simp only [getTrack_ok ht, bind, Except.bind, hpb]
  refine (anyM_straddles (p := fun o => o.id ≠ tk.id ∧
    ∃ s, at' o.states (toTrackStep c 0) = .ok s ∧ s.valid ∧ Straddles (stateBox s)) ?_).trans (by congr)
  intro o ho
  obtain ⟨s, hso⟩ := hs o ho
  have hso' : at' o.states (toTrackStep c ((0 : ℕ) : ℤ)) = .ok s := hso
  unfold overlapsTrack
  by_cases hid : o.id = tk.id
  · simp [hid]
  · simp only [hid, if_false, bind, Except.bind, hso', hso]
    by_cases hv : s.valid = true
    · simp [hv, hid, polygonsOverlap, containsOrigin_iff]
    · simp [hv, pure, Except.pure]

/-- C29: a box around the origin is hit, so that the case of failure exists. -/
theorem straddles_example : Straddles ⟨1, 0, 0, 4, 2⟩ ∧ ¬ Straddles ⟨1, 3, 0, 4, 2⟩ ∧ ¬ Straddles ⟨5, 0, 0, 4, 2⟩ := by
  simp only [← containsOrigin_iff, containsOrigin, Real.cos_zero, Real.sin_zero]
  norm_num

/-! ### The type of a joint prediction -/

/-- The documented order of the object types, the one with the greatest priority last (motion_metrics.cc:40-51). -/
def typeOrder : List ObjType := [.unset, .other, .vehicle, .pedestrian, .cyclist]

theorem object_priority_spec (ty : ObjType) :
    typeOrder[ty.priority]? = some ty ∧ ty.priority = typeOrder.idxOf ty := by
  cases ty <;> exact ⟨rfl, by decide⟩

/-- C223: the statistics of a joint prediction are those of the object type that comes last in the documented order. -/
theorem objectType_leading {m : Tracks} {l : List Traj} (hne : l ≠ []) (h : ∀ t ∈ l, (trackOf m t.id).isSome) :
    ∃ ty, objectType m l .unset = .ok ty ∧ (∃ t ∈ l, ∃ tk, trackOf m t.id = some tk ∧ tk.type = ty) ∧
      ∀ t ∈ l, ∀ tk, trackOf m t.id = some tk → typeOrder.idxOf tk.type ≤ typeOrder.idxOf ty := by
  obtain ⟨ty, h1, h2, h3⟩ := objectType_spec hne h
  refine ⟨ty, h1, ?_, ?_⟩
  · simp only [objectTypes, List.mem_filterMap, Option.map_eq_some_iff] at h2
    exact h2
  · intro t ht tk htk
    have := h3 tk.type (by
      simp only [objectTypes, List.mem_filterMap, Option.map_eq_some_iff]
      exact ⟨t, ht, tk, htk, rfl⟩)
    rwa [(object_priority_spec _).2, (object_priority_spec _).2] at this

end Verif.Motion
