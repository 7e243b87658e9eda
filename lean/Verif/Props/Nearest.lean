import Verif.Props.BoxDistance

/-!
The distance to the nearest object: wdl_limited/sim_agents_metrics/interaction_features.py, `compute_distance_to_nearest_object`.
-/

namespace Verif.Interaction

open Verif.Planar Verif.ListM

/-! ### An object and itself -/

/-- A disc of half the smaller side fits in the box, whatever the rounding. -/
theorem rounded_disc {f : ℝ} {o : Obj} (h : Proper f o) {w : P} (hw : Planar.norm w ≤ min o.length o.width / 2) :
    Rounded f o ((o.x, o.y) + w) := by
  have hm := lt_min h.length h.width
  have hl := min_le_left o.length o.width
  have hr := min_le_right o.length o.width
  have h0 := h.low
  have h1 := h.high
  set m := min o.length o.width with hmdef
  have hsq := norm_sq w
  have hn := Planar.norm_nonneg w
  have hcs := Real.cos_sq_add_sin_sq o.heading
  set c := Real.cos o.heading with hc
  set s := Real.sin o.heading with hs
  have e1 : |w.1 * c + w.2 * s| ≤ m / 2 := by
    refine le_trans (Real.abs_le_sqrt (y := w.1 ^ 2 + w.2 ^ 2) ?_) hw
    nlinarith [sq_nonneg (w.1 * s - w.2 * c)]
  have e2 : |-w.1 * s + w.2 * c| ≤ m / 2 := by
    refine le_trans (Real.abs_le_sqrt (y := w.1 ^ 2 + w.2 ^ 2) ?_) hw
    nlinarith [sq_nonneg (w.1 * c + w.2 * s)]
  refine ⟨(o.x + (1 - f) * w.1, o.y + (1 - f) * w.2), ⟨(1 - f) * (w.1 * c + w.2 * s), (1 - f) * (-w.1 * s + w.2 * c), ?_, ?_, ?_⟩, ?_⟩
  · rw [abs_mul, abs_of_pos (by linarith)]
    nlinarith
  · rw [abs_mul, abs_of_pos (by linarith)]
    nlinarith
  · rw [← hc, ← hs]
    simp only [Prod.mk.injEq]
    constructor
    · linear_combination -(1 - f) * w.1 * hcs
    · linear_combination -(1 - f) * w.2 * hcs
  · have e : ((o.x, o.y) + w - (o.x + (1 - f) * w.1, o.y + (1 - f) * w.2) : P) = (f * w.1, f * w.2) := by
      ext <;> simp only [Prod.fst_sub, Prod.snd_sub, Prod.fst_add, Prod.snd_add] <;> ring
    rw [e, Planar.norm_smul, abs_of_nonneg h0]
    nlinarith

/-- The points of a box, along and across its heading. -/
theorem rounded_bounds {f : ℝ} {o : Obj} {z : P} (h : Rounded f o z) :
    |dot (Real.cos o.heading, Real.sin o.heading) (z - (o.x, o.y))| ≤ o.length / 2 ∧
      |dot (-Real.sin o.heading, Real.cos o.heading) (z - (o.x, o.y))| ≤ o.width / 2 := by
  obtain ⟨p, ⟨ξ, η, h1, h2, rfl⟩, h3⟩ := h
  have hcs := Real.cos_sq_add_sin_sq o.heading
  set c := Real.cos o.heading
  set s := Real.sin o.heading
  set e : P := z - (o.x + ξ * c - η * s, o.y + ξ * s + η * c) with he
  have hz : z = e + (o.x + ξ * c - η * s, o.y + ξ * s + η * c) := by rw [he, sub_add_cancel]
  have n1 : Planar.norm (c, s) = 1 := norm_eq_of_sq zero_le_one (by linarith)
  have n2 : Planar.norm (-s, c) = 1 := norm_eq_of_sq zero_le_one (by simp only; linarith)
  have a1 := dot_le_norm (c, s) e
  have a2 := dot_le_norm (c, s) (-e)
  have a3 := dot_le_norm (-s, c) e
  have a4 := dot_le_norm (-s, c) (-e)
  rw [norm_neg] at a2 a4
  rw [n1] at a1 a2
  rw [n2] at a3 a4
  have d1 : dot (c, s) (z - (o.x, o.y)) = ξ + dot (c, s) e := by
    rw [hz]
    simp only [dot, Prod.fst_sub, Prod.snd_sub, Prod.fst_add, Prod.snd_add]
    linear_combination ξ * hcs
  have d2 : dot (-s, c) (z - (o.x, o.y)) = η + dot (-s, c) e := by
    rw [hz]
    simp only [dot, Prod.fst_sub, Prod.snd_sub, Prod.fst_add, Prod.snd_add]
    linear_combination η * hcs
  have m1 : dot (c, s) (-e) = -dot (c, s) e := by simp only [dot, Prod.fst_neg, Prod.snd_neg]; ring
  have m2 : dot (-s, c) (-e) = -dot (-s, c) e := by simp only [dot, Prod.fst_neg, Prod.snd_neg]; ring
  rw [d1, d2]
  rw [abs_le] at h1 h2 ⊢
  rw [abs_le]
  refine ⟨⟨?_, ?_⟩, ?_, ?_⟩ <;> linarith [h1.1, h1.2, h2.1, h2.2]

/-- The distance of an object to itself, or to one in the same place. -/
theorem pairDistance_self {f : ℝ} {o : Obj} (h : Proper f o) : pairDistance f o o = some (-min o.length o.width) := by
  obtain ⟨d, hd, hsig⟩ := pairDistance_spec h h
  rw [hd, Option.some.injEq]
  have hm := lt_min h.length h.width
  refine hsig.unique ⟨fun h => absurd h (by linarith), fun _ => ⟨fun w hw => ?_, ?_⟩⟩
  · have hh : Planar.norm (1 / 2 * w.1, 1 / 2 * w.2) ≤ min o.length o.width / 2 := by
      rw [Planar.norm_smul, abs_of_pos (by norm_num)]
      linarith
    have hh' : Planar.norm (-1 / 2 * w.1, -1 / 2 * w.2) ≤ min o.length o.width / 2 := by
      rw [Planar.norm_smul, abs_of_neg (by norm_num)]
      linarith
    refine ⟨_, _, rounded_disc h hh, rounded_disc h hh', ?_⟩
    ext <;> simp only [Prod.fst_sub, Prod.snd_sub, Prod.fst_add, Prod.snd_add] <;> ring
  · have hcs := Real.cos_sq_add_sin_sq o.heading
    rcases le_total o.length o.width with hle | hle
    · refine ⟨(Real.cos o.heading, Real.sin o.heading), norm_eq_of_sq zero_le_one (by simp only; linarith), ?_⟩
      rintro z ⟨p, q, hp, hq, rfl⟩
      have h1 := (rounded_bounds hp).1
      have h2 := (rounded_bounds hq).1
      rw [abs_le] at h1 h2
      rw [min_eq_left hle]
      simp only [dot, Prod.fst_sub, Prod.snd_sub] at h1 h2 ⊢
      linarith [h1.1, h2.2]
    · refine ⟨(-Real.sin o.heading, Real.cos o.heading), norm_eq_of_sq zero_le_one (by simp only; linarith), ?_⟩
      rintro z ⟨p, q, hp, hq, rfl⟩
      have h1 := (rounded_bounds hp).2
      have h2 := (rounded_bounds hq).2
      rw [abs_le] at h1 h2
      rw [min_eq_right hle]
      simp only [dot, Prod.fst_sub, Prod.snd_sub] at h1 h2 ⊢
      linarith [h1.1, h2.2]

/-! ### The nearest object -/

theorem mem_whereTrue {mask : List Bool} {i : ℕ} : i ∈ whereTrue mask ↔ mask[i]? = some true := by
  unfold whereTrue
  rw [List.mem_filter, List.mem_range, beq_iff_eq]
  exact ⟨fun h => h.2, fun h => ⟨(List.getElem?_eq_some_iff.1 h).1, h⟩⟩

theorem whereTrue_nodup (mask : List Bool) : (whereTrue mask).Nodup := List.nodup_range.filter _

theorem mem_whereTrue_not {mask : List Bool} {i : ℕ} : i ∈ whereTrue (mask.map not) ↔ mask[i]? = some false := by
  rw [mem_whereTrue, List.getElem?_map]
  cases h : mask[i]? with
  | none => simp
  | some b => cases b <;> simp

theorem order_nodup (mask : List Bool) : (whereTrue mask ++ whereTrue (mask.map not)).Nodup := by
  rw [List.nodup_append]
  refine ⟨whereTrue_nodup _, whereTrue_nodup _, ?_⟩
  rintro a ha b hb rfl
  rw [mem_whereTrue] at ha
  rw [mem_whereTrue_not, ha] at hb
  simp at hb

theorem mem_order {mask : List Bool} {i : ℕ} : i ∈ whereTrue mask ++ whereTrue (mask.map not) ↔ i < mask.length := by
  rw [List.mem_append, mem_whereTrue, mem_whereTrue_not]
  constructor
  · rintro (h | h) <;> exact (List.getElem?_eq_some_iff.1 h).1
  · intro h
    rw [List.getElem?_eq_getElem h]
    cases mask[i] <;> simp

theorem forall₂_get {α β : Type} {R : α → β → Prop} {l : List α} {r : List β} (h : List.Forall₂ R l r) {k : ℕ} {a : α}
    (ha : l[k]? = some a) : ∃ b, r[k]? = some b ∧ R a b := by
  induction h generalizing k with
  | nil => simp at ha
  | cons h1 _ ih =>
    cases k with
    | zero =>
      simp only [List.getElem?_cons_zero, Option.some.injEq] at ha
      exact ⟨_, rfl, ha ▸ h1⟩
    | succ k => exact ih (by simpa using ha)

theorem forall₂_get' {α β : Type} {R : α → β → Prop} {l : List α} {r : List β} (h : List.Forall₂ R l r) {k : ℕ} {b : β}
    (hb : r[k]? = some b) : ∃ a, l[k]? = some a ∧ R a b := by
  induction h generalizing k with
  | nil => simp at hb
  | cons h1 _ ih =>
    cases k with
    | zero =>
      simp only [List.getElem?_cons_zero, Option.some.injEq] at hb
      exact ⟨_, rfl, hb ▸ h1⟩
    | succ k => exact ih (by simpa using hb)

/-- What an object contributes to the smallest distance of an evaluated object. -/
def Contributes (f : ℝ) (objs : List Obj) (i j : ℕ) (x : ℝ) : Prop :=
  ∃ a b, objs[i]? = some a ∧ objs[j]? = some b ∧
    ((a.valid = true ∧ b.valid = true ∧ ∃ d, pairDistance f a b = some d ∧ x = if i = j then d + big else d) ∨
      (¬(a.valid = true ∧ b.valid = true) ∧ x = big))

/-- Each evaluated object gets the smallest contribution of any object, evaluated or not. -/
theorem nearest_contributes {f : ℝ} {objs : List Obj} {mask : List Bool} {r : List ℝ} (hlen : mask.length = objs.length)
    (h : nearest f objs mask = some r) : r.length = (whereTrue mask).length ∧ ∀ k i : ℕ, (whereTrue mask)[k]? = some i →
      ∃ v : ℝ, r[k]? = some v ∧ (∃ j, Contributes f objs i j v) ∧ ∀ j < objs.length, ∃ x, Contributes f objs i j x ∧ v ≤ x := by
  unfold nearest at h
  rw [Option.bind_eq_bind, Option.bind_eq_some_iff] at h
  obtain ⟨eval, hev, h⟩ := h
  rw [Option.bind_eq_bind, Option.bind_eq_some_iff] at h
  obtain ⟨other, hot, h⟩ := h
  have he := mapM_forall₂ hev
  have ho := mapM_forall₂ hot
  have hr := mapM_forall₂ h
  have hall := List.rel_append he ho
  have hl1 := he.length_eq
  have hl2 := hr.length_eq
  rw [List.length_zipIdx] at hl2
  refine ⟨by rw [← hl2, ← hl1], fun k i hk => ?_⟩
  obtain ⟨a, hak, hai⟩ := forall₂_get he hk
  have hz : eval.zipIdx[k]? = some (a, k) := by
    rw [List.getElem?_zipIdx, hak]
    simp
  obtain ⟨v, hv, hbody⟩ := forall₂_get hr hz
  rw [Option.bind_eq_some_iff] at hbody
  obtain ⟨ds, hds, hleast⟩ := hbody
  have hd := mapM_forall₂ hds
  have hord : (whereTrue mask ++ whereTrue (mask.map not))[k]? = some i := by
    rw [List.getElem?_append_left (List.getElem?_eq_some_iff.1 hk).1]
    exact hk
  have hsame : ∀ k' j : ℕ, (whereTrue mask ++ whereTrue (mask.map not))[k']? = some j → (k = k' ↔ i = j) := by
    intro k' j hj
    constructor
    · rintro rfl
      rw [hord] at hj
      exact Option.some.inj hj
    · rintro rfl
      exact (List.getElem?_inj (List.getElem?_eq_some_iff.1 hord).1 (order_nodup mask)).1 (hord.trans hj.symm)
  have hentry : ∀ (k' j : ℕ) (b : Obj) (x : ℝ), (whereTrue mask ++ whereTrue (mask.map not))[k']? = some j → objs[j]? = some b →
      maskedDistance f (a, k) (b, k') = some x → Contributes f objs i j x := by
    intro k' j b x hj hb hx
    refine ⟨a, b, hai, hb, ?_⟩
    unfold maskedDistance at hx
    simp only at hx
    by_cases hval : (a.valid && b.valid) = true
    · rw [if_pos hval] at hx
      rw [Bool.and_eq_true] at hval
      obtain ⟨d, hd, rfl⟩ := Option.map_eq_some_iff.1 hx
      refine Or.inl ⟨hval.1, hval.2, d, hd, ?_⟩
      by_cases hij : i = j
      · rw [if_pos hij, if_pos ((hsame k' j hj).2 hij), one_mul]
      · rw [if_neg hij, if_neg (fun h => hij ((hsame k' j hj).1 h)), zero_mul, add_zero]
    · rw [if_neg hval] at hx
      rw [Bool.and_eq_true] at hval
      exact Or.inr ⟨hval, (Option.some.inj hx).symm⟩
  have hne : ds ≠ [] := by
    rintro rfl
    simp [least] at hleast
  obtain ⟨m, hm, hml, hmin⟩ := least_spec hne
  rw [hleast] at hml
  obtain rfl := Option.some.inj hml
  refine ⟨v, hv, ?_, fun j hj => ?_⟩
  · obtain ⟨k', hk'⟩ := List.getElem?_of_mem hm
    obtain ⟨⟨b, k''⟩, hb, hx⟩ := forall₂_get' hd hk'
    rw [List.getElem?_zipIdx, Option.map_eq_some_iff] at hb
    obtain ⟨b', hb', heq⟩ := hb
    simp only [zero_add, Prod.mk.injEq] at heq
    obtain ⟨rfl, rfl⟩ := heq
    obtain ⟨j, hj, hjb⟩ := forall₂_get' hall hb'
    exact ⟨j, hentry _ j _ v hj hjb hx⟩
  · have hjm : j ∈ whereTrue mask ++ whereTrue (mask.map not) := mem_order.2 (hlen ▸ hj)
    obtain ⟨k', hk'⟩ := List.getElem?_of_mem hjm
    obtain ⟨b, hb, hjb⟩ := forall₂_get hall hk'
    have hz' : (eval ++ other).zipIdx[k']? = some (b, k') := by
      rw [List.getElem?_zipIdx, hb]
      simp
    obtain ⟨x, hx, hxe⟩ := forall₂_get hd hz'
    exact ⟨x, hentry k' j b x hk' hjb hxe, hmin x (List.mem_of_getElem? hx)⟩

/-- Valid objects have proper sizes, and no two of them are farther apart than the large constant, less the size of an object. -/
structure Scene (f : ℝ) (objs : List Obj) : Prop where
  proper : ∀ o ∈ objs, o.valid = true → Proper f o
  near : ∀ a ∈ objs, ∀ b ∈ objs, a.valid = true → b.valid = true → ∀ d, pairDistance f a b = some d →
    d ≤ big - min a.length a.width

/-- C53: the distance of each evaluated object is the smallest distance to any other valid object, evaluated or not and wherever it
is in the list; if there is none, it is the large constant less the smaller side of the object; an invalid object gets the large
constant. -/
theorem nearest_spec {f : ℝ} {objs : List Obj} {mask : List Bool} {r : List ℝ} (hlen : mask.length = objs.length)
    (hs : Scene f objs) (h : nearest f objs mask = some r) : r.length = (whereTrue mask).length ∧
    ∀ k i : ℕ, (whereTrue mask)[k]? = some i → ∃ (v : ℝ) (a : Obj), r[k]? = some v ∧ objs[i]? = some a ∧
      (a.valid = false → v = big) ∧
      (a.valid = true → (∃ (j : ℕ) (b : Obj), j ≠ i ∧ objs[j]? = some b ∧ b.valid = true) →
        IsLeast {d | ∃ (j : ℕ) (b : Obj), j ≠ i ∧ objs[j]? = some b ∧ b.valid = true ∧ pairDistance f a b = some d} v) ∧
      (a.valid = true → (∀ (j : ℕ) (b : Obj), j ≠ i → objs[j]? = some b → b.valid = false) → v = big - min a.length a.width) := by
  obtain ⟨h1, h2⟩ := nearest_contributes hlen h
  refine ⟨h1, fun k i hk => ?_⟩
  obtain ⟨v, hv, ⟨j, a, b, ha, hb, hj⟩, hmin⟩ := h2 k i hk
  have ham := List.mem_of_getElem? ha
  have hil : i < objs.length := (List.getElem?_eq_some_iff.1 ha).1
  refine ⟨v, a, hv, ha, fun hinv => ?_, fun hval hex => ?_, fun hval hno => ?_⟩
  · rcases hj with ⟨hav, _⟩ | ⟨_, hv⟩
    · rw [hinv] at hav
      simp at hav
    · exact hv
  · have hpa := hs.proper a ham hval
    have hmpos := lt_min hpa.length hpa.width
    have hle : ∀ (j : ℕ) (b : Obj) (d : ℝ), j ≠ i → objs[j]? = some b → b.valid = true → pairDistance f a b = some d → v ≤ d := by
      intro j b d hji hb hbv hd
      obtain ⟨x, ⟨a', b', ha', hb', hx⟩, hvx⟩ := hmin j (List.getElem?_eq_some_iff.1 hb).1
      rw [ha] at ha'
      rw [hb] at hb'
      obtain rfl := Option.some.inj ha'
      obtain rfl := Option.some.inj hb'
      rcases hx with ⟨_, _, d', hd', hx⟩ | ⟨hn, _⟩
      · rw [hd] at hd'
        obtain rfl := Option.some.inj hd'
        rw [if_neg (Ne.symm hji)] at hx
        rwa [← hx]
      · exact absurd ⟨hval, hbv⟩ hn
    have hlow : v ≤ big - min a.length a.width := by
      obtain ⟨j, b, hji, hb, hbv⟩ := hex
      have hbm := List.mem_of_getElem? hb
      obtain ⟨d, hd, _⟩ := pairDistance_spec hpa (hs.proper b hbm hbv)
      exact (hle j b d hji hb hbv hd).trans (hs.near a ham b hbm hval hbv d hd)
    refine ⟨?_, fun d hd => ?_⟩
    · rcases hj with ⟨_, hbv, d, hd, hvd⟩ | ⟨_, hvb⟩
      · by_cases hij : i = j
        · subst hij
          rw [ha] at hb
          obtain rfl := Option.some.inj hb
          rw [if_pos rfl] at hvd
          obtain ⟨j, b, hji, hb, hbv⟩ := hex
          have hbm := List.mem_of_getElem? hb
          obtain ⟨d', hd', _⟩ := pairDistance_spec hpa (hs.proper b hbm hbv)
          rw [pairDistance_self hpa] at hd
          have e := Option.some.inj hd
          refine ⟨j, b, hji, hb, hbv, ?_⟩
          rw [hd']
          have u1 := hle j b d' hji hb hbv hd'
          have u2 := hs.near a ham b hbm hval hbv d' hd'
          congr 1
          linarith
        · rw [if_neg hij] at hvd
          subst hvd
          exact ⟨j, b, Ne.symm hij, hb, hbv, hd⟩
      · exfalso
        linarith
    · obtain ⟨j, b, hji, hb, hbv, hd⟩ := hd
      exact hle j b d hji hb hbv hd
  · have hpa := hs.proper a ham hval
    have hmpos := lt_min hpa.length hpa.width
    have hself : v ≤ big - min a.length a.width := by
      obtain ⟨x, ⟨a', b', ha', hb', hx⟩, hvx⟩ := hmin i hil
      rw [ha] at ha' hb'
      obtain rfl := Option.some.inj ha'
      obtain rfl := Option.some.inj hb'
      rcases hx with ⟨_, _, d, hd, hx⟩ | ⟨hn, _⟩
      · rw [pairDistance_self hpa] at hd
        have := Option.some.inj hd
        rw [if_pos rfl] at hx
        linarith
      · exact absurd ⟨hval, hval⟩ hn
    rcases hj with ⟨_, hbv, d, hd, hvd⟩ | ⟨_, hvb⟩
    · by_cases hij : i = j
      · subst hij
        rw [ha] at hb
        obtain rfl := Option.some.inj hb
        rw [pairDistance_self hpa] at hd
        have := Option.some.inj hd
        rw [if_pos rfl] at hvd
        linarith
      · have := hno j b (Ne.symm hij) hb
        rw [hbv] at this
        simp at this
    · linarith

/-- There is a result whenever the valid objects have proper sizes, whatever the sizes of the invalid ones. -/
theorem nearest_some {f : ℝ} {objs : List Obj} {mask : List Bool} (hlen : mask.length = objs.length)
    (hs : ∀ o ∈ objs, o.valid = true → Proper f o) : ∃ r, nearest f objs mask = some r := by
  have hg : ∀ idx : List ℕ, (∀ i ∈ idx, i < objs.length) → ∃ l, gather objs idx = some l := by
    intro idx hi
    exact mapM_isSome fun i h => ⟨objs[i]'(hi i h), List.getElem?_eq_getElem (hi i h)⟩
  obtain ⟨eval, he⟩ := hg (whereTrue mask) fun i hi => by
    rw [← hlen]
    exact (List.getElem?_eq_some_iff.1 (mem_whereTrue.1 hi)).1
  obtain ⟨other, ho⟩ := hg (whereTrue (mask.map not)) fun i hi => by
    rw [← hlen]
    exact (List.getElem?_eq_some_iff.1 (mem_whereTrue_not.1 hi)).1
  have hmem : ∀ o ∈ eval ++ other, o ∈ objs := by
    intro o ho'
    have hall := List.rel_append (mapM_forall₂ he) (mapM_forall₂ ho)
    obtain ⟨k, hk⟩ := List.getElem?_of_mem ho'
    obtain ⟨j, _, hj⟩ := forall₂_get' hall hk
    exact List.mem_of_getElem? hj
  unfold nearest
  rw [he, Option.bind_eq_bind, Option.bind_some, ho, Option.bind_eq_bind, Option.bind_some]
  apply mapM_isSome
  rintro ⟨a, k⟩ hak
  have haz : a ∈ eval := List.fst_mem_of_mem_zipIdx hak
  have ham := hmem a (List.mem_append_left _ haz)
  have hds : ∃ ds, (eval ++ other).zipIdx.mapM (maskedDistance f (a, k)) = some ds := by
    apply mapM_isSome
    rintro ⟨b, k'⟩ hb
    have hbm := hmem b (List.fst_mem_of_mem_zipIdx hb)
    unfold maskedDistance
    by_cases hval : (a.valid && b.valid) = true
    · simp only [hval]
      rw [Bool.and_eq_true] at hval
      obtain ⟨d, hd, _⟩ := pairDistance_spec (hs a ham hval.1) (hs b hbm hval.2)
      rw [hd]
      exact ⟨_, rfl⟩
    · simp only [if_neg hval]
      exact ⟨_, rfl⟩
  obtain ⟨ds, hds⟩ := hds
  have hne : ds ≠ [] := by
    rintro rfl
    have := (mapM_forall₂ hds).length_eq
    rw [List.length_zipIdx, List.length_nil, List.length_eq_zero_iff, List.append_eq_nil_iff] at this
    rw [this.1] at haz
    simp at haz
  obtain ⟨m, _, hm, _⟩ := least_spec hne
  exact ⟨m, by rw [hds, Option.bind_some, hm]⟩

/-- Neither the order of the objects nor which of the others are evaluated matters: an object at different places in two lists
of the same objects gets the same distance. -/
theorem nearest_order {f : ℝ} {objs objs' : List Obj} {mask mask' : List Bool} {r r' : List ℝ} (hlen : mask.length = objs.length)
    (hlen' : mask'.length = objs'.length) (h : nearest f objs mask = some r) (h' : nearest f objs' mask' = some r')
    (σ : ℕ ≃ ℕ) (hσ : ∀ j : ℕ, objs'[σ j]? = objs[j]?) {k k' i : ℕ} (hk : (whereTrue mask)[k]? = some i)
    (hk' : (whereTrue mask')[k']? = some (σ i)) : r[k]? = r'[k']? := by
  obtain ⟨v, hv, ⟨j, hj⟩, hmin⟩ := (nearest_contributes hlen h).2 k i hk
  obtain ⟨v', hv', ⟨j', hj'⟩, hmin'⟩ := (nearest_contributes hlen' h').2 k' (σ i) hk'
  have htrans : ∀ j x, Contributes f objs i j x ↔ Contributes f objs' (σ i) (σ j) x := by
    intro j x
    unfold Contributes
    rw [hσ, hσ]
    simp only [EmbeddingLike.apply_eq_iff_eq]
  have huniq : ∀ j x y, Contributes f objs i j x → Contributes f objs i j y → x = y := by
    rintro j x y ⟨a, b, ha, hb, hx⟩ ⟨a', b', ha', hb', hy⟩
    rw [ha] at ha'
    rw [hb] at hb'
    obtain rfl := Option.some.inj ha'
    obtain rfl := Option.some.inj hb'
    rcases hx with ⟨h1, h2, d, hd, rfl⟩ | ⟨hn, rfl⟩ <;> rcases hy with ⟨h1', h2', d', hd', rfl⟩ | ⟨hn', rfl⟩
    · rw [hd] at hd'
      rw [Option.some.inj hd']
    · exact absurd ⟨h1, h2⟩ hn'
    · exact absurd ⟨h1', h2'⟩ hn
    · rfl
  have hjl : ∀ {j x}, Contributes f objs i j x → j < objs.length := by
    rintro j x ⟨a, b, _, hb, _⟩
    exact (List.getElem?_eq_some_iff.1 hb).1
  have hjl' : ∀ {j x}, Contributes f objs' (σ i) j x → j < objs'.length := by
    rintro j x ⟨a, b, _, hb, _⟩
    exact (List.getElem?_eq_some_iff.1 hb).1
  rw [hv, hv']
  congr 1
  apply le_antisymm
  · obtain ⟨j0, rfl⟩ := σ.surjective j'
    have h0 := (htrans j0 v').2 hj'
    obtain ⟨x, hx, hle⟩ := hmin j0 (hjl h0)
    rwa [huniq _ _ _ hx h0] at hle
  · have h0 := (htrans j v).1 hj
    obtain ⟨x, hx, hle⟩ := hmin' (σ j) (hjl' h0)
    rwa [huniq _ _ _ ((htrans j x).2 hx) hj] at hle

/-- Two cars six metres apart and an object that is not valid: both cars get six metres. -/
theorem nearest_example : ∃ r, nearest roundingFactor [⟨0, 0, 0, 4, 2, 1, 0, true⟩, ⟨1, 0, 0, 0, 0, 0, 0, false⟩,
    ⟨10, 0, 0, 4, 2, 1, 0, true⟩] [true, false, false] = some r ∧ r[0]? = some 6 := by
  have hp : ∀ x v, Proper roundingFactor ⟨x, 0, 0, 4, 2, 1, 0, v⟩ := fun x v =>
    ⟨by norm_num, by norm_num, by norm_num [roundingFactor], by norm_num [roundingFactor]⟩
  have hprop : ∀ o ∈ [(⟨0, 0, 0, 4, 2, 1, 0, true⟩ : Obj), ⟨1, 0, 0, 0, 0, 0, 0, false⟩, ⟨10, 0, 0, 4, 2, 1, 0, true⟩],
      o.valid = true → Proper roundingFactor o := by
    intro o ho hv
    simp only [List.mem_cons, List.not_mem_nil, or_false] at ho
    rcases ho with rfl | rfl | rfl
    · exact hp 0 true
    · simp at hv
    · exact hp 10 true
  obtain ⟨r, hr⟩ := nearest_some (mask := [true, false, false]) rfl hprop
  have hscene : Scene roundingFactor [⟨0, 0, 0, 4, 2, 1, 0, true⟩, ⟨1, 0, 0, 0, 0, 0, 0, false⟩, ⟨10, 0, 0, 4, 2, 1, 0, true⟩] := by
    refine ⟨hprop, ?_⟩
    have hm : min (4 : ℝ) 2 = 2 := min_eq_right (by norm_num)
    have hself : ∀ x d, pairDistance roundingFactor ⟨x, 0, 0, 4, 2, 1, 0, true⟩ ⟨x, 0, 0, 4, 2, 1, 0, true⟩ = some d → d ≤ big - 2 := by
      intro x d hd
      rw [pairDistance_self (hp x true), hm] at hd
      have := Option.some.inj hd
      unfold big
      linarith
    have h6 : (6 : ℝ) ≤ big - 2 := by unfold big; norm_num
    intro a ha b hb hav hbv d hd
    simp only [List.mem_cons, List.not_mem_nil, or_false] at ha hb
    rcases ha with rfl | rfl | rfl <;> rcases hb with rfl | rfl | rfl <;> simp only [hm] <;>
      first | exact absurd hav Bool.false_ne_true | exact absurd hbv Bool.false_ne_true | exact hself _ d hd | skip
    · rw [pairDistance_example] at hd
      exact Option.some.inj hd ▸ h6
    · rw [pairDistance_comm (hp 10 true) (hp 0 true), pairDistance_example] at hd
      exact Option.some.inj hd ▸ h6
  obtain ⟨_, h⟩ := nearest_spec rfl hscene hr
  obtain ⟨v, a, hv, ha, _, hleast, _⟩ := h 0 0 (by simp [whereTrue, List.range_succ])
  simp only [List.getElem?_cons_zero, Option.some.injEq] at ha
  subst ha
  refine ⟨r, hr, ?_⟩
  obtain ⟨⟨j, b, hj, hb, hbv, hd⟩, _⟩ := hleast rfl ⟨2, _, by norm_num, rfl, rfl⟩
  rw [hv, Option.some.injEq]
  match j, hj, hb with
  | 0, hj, _ => exact absurd rfl hj
  | 1, _, hb =>
    simp only [List.getElem?_cons_zero, List.getElem?_cons_succ, Option.some.injEq] at hb
    subst hb
    simp at hbv
  | 2, _, hb =>
    simp only [List.getElem?_cons_zero, List.getElem?_cons_succ, Option.some.injEq] at hb
    subst hb
    rw [pairDistance_example] at hd
    exact (Option.some.inj hd).symm
  | j + 3, _, hb => simp at hb

end Verif.Interaction
