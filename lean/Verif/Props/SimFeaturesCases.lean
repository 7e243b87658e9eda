import Verif.Props.SimFeaturesUse
import Verif.Props.Kinematics

/-! C158-C162: cases, and a scene whose times to collision depend on the order of a set. -/

namespace Verif.SimFeatures

open Verif.SimAgents Verif.ListM
open Verif.Interaction (Obj Car big pairDistance roundingFactor Scene closing maskedLong carAt whereTrue maskedDistance ttcStep Proper longDistance Follows)

noncomputable section

/-- The times to collision in terms of the cars in the order in which the ids are listed. -/
theorem compute_time {order : List ℤ → List ℤ} (ho : Listing order) {s : Scenario ℝ} {m : MapData} {ch : Challenge}
    {pairs : List (Sim ℝ × Track ℝ)} (h : Posed s ch pairs) {ids : List ℤ} (he : evaluationIds s ch = some ids) (hne : ids ≠ [])
    (hin : ∀ i ∈ ids, ∃ p ∈ pairs, p.1.id = i) {lv : Bool} {F : Features}
    (hF : compute order s m (pairs.map Prod.fst) ch lv = some F) {k t : ℕ} (hk : k < ids.length) (ht : t < scored ch) :
    ∃ cars ego, List.Forall₂ (fun j o => ∃ p ∈ pairs, p.1.id = j ∧ carAt (1 / 10) (start ch + t) (course (entity ch lv p)) = some o)
        (ids ++ order ((pairs.map fun p => p.1.id).filter fun i => i ∉ ids)) cars ∧
      cars[k]? = some ego ∧ cell F.time t k = ttcStep ego cars := by
  obtain ⟨eval, rest, harr, hrest, hc⟩ := compute_eq ho (m := m) h he hne hin lv
  have hl : ∀ p ∈ eval ++ rest, p ∈ pairs := fun p hp => harr.perm.mem_iff.1 hp
  have hlen : eval.length = ids.length := by rw [← harr.ids, List.length_map]
  rw [hc] at hF
  unfold arranged at hF
  simp only [Option.bind_eq_bind, Option.bind_eq_some_iff, Option.pure_def, Option.some.injEq] at hF
  obtain ⟨near, hnear, time, htime, edge, hedge, light, hlight, rfl⟩ := hF
  have hss := start_scored ch
  rw [cutoff_eq, cell_drop]
  obtain ⟨tr, ht1, ht2⟩ := mapM_get htime (range_get (show start ch + t < 91 by omega))
  unfold Interaction.timeToCollision at ht2
  rw [Option.bind_eq_bind, Option.bind_eq_some_iff] at ht2
  obtain ⟨cars, hcars, ht2⟩ := ht2
  rw [Option.bind_eq_some_iff] at ht2
  obtain ⟨egos, hegos, ht2⟩ := ht2
  unfold frontMask at hegos
  rw [whereTrue_front] at hegos
  obtain ⟨ego, he1, he2⟩ := mapM_get hegos (range_get (show k < eval.length by omega))
  obtain ⟨τ, hτ1, hτ2⟩ := mapM_get ht2 he1
  refine ⟨cars, ego, ?_, he2, by simp [cell, ht1, hτ1, hτ2]⟩
  rw [← hrest, ← harr.ids, ← List.map_append, List.forall₂_map_left_iff]
  have := mapM_forall₂ hcars
  rw [List.map_map, List.forall₂_map_left_iff] at this
  exact forall₂_imp_mem this fun p hp o _ ho' => ⟨p, hl p hp, rfl, ho'⟩

/-! ### A scene with two cars at the same distance -/

/-- A list of numbers: one value for the history, one for the first simulated step, one for all later ones. -/
def values (a b c : ℝ) : List ℝ := List.replicate 11 a ++ b :: List.replicate 79 c

/-- A state of a car. -/
def carState (x y w : ℝ) : State ℝ := ⟨fun | .x => x | .y => y | .z => 0 | .heading => 0 | .length => 2 | .width => w | .height => 1, true⟩

/-- The log of a car that does not move. -/
def carTrack (i : ℤ) (x y w : ℝ) : Track ℝ := ⟨i, 1, List.replicate 91 (carState x y w)⟩

/-- The simulation of a car. -/
def carSim (i : ℤ) (b c y w : ℝ) : Sim ℝ :=
  ⟨fun | .x => b :: List.replicate 79 c | .y => List.replicate 80 y | .z => List.replicate 80 0 | .heading => List.replicate 80 0
       | .length => List.replicate 80 2 | .width => List.replicate 80 w | .height => List.replicate 80 1, List.replicate 80 true, i, 1⟩

/-- A car to be evaluated and two other ones. -/
def street : Scenario ℝ := ⟨[carTrack 1 0 0 4, carTrack 2 100 1 1, carTrack 3 90 (-1) 1], 0, []⟩

/-- The simulated car reaches two cars that are at the same distance; one of them stands and the other one is fast. -/
def drive : List (Sim ℝ × Track ℝ) :=
  [(carSim 1 5 10 0 4, carTrack 1 0 0 4), (carSim 2 100 100 1 1, carTrack 2 100 1 1), (carSim 3 100 110 (-1) 1, carTrack 3 90 (-1) 1)]

/-- A road edge. -/
def kerb : MapData := ⟨[⟨5, some [⟨0, 0, 0⟩, ⟨1, 0, 0⟩], none⟩], []⟩

theorem street_complete : Complete street 91 := ⟨by simp [street], by norm_num, by simp [street, carTrack], by simp [street, carTrack]⟩

theorem drive_posed : Posed street .simAgents drive := by
  refine ⟨street_complete, ?_, ?_, by simp [drive, carSim]⟩
  · intro p hp
    simp only [drive, List.mem_cons, List.not_mem_nil, or_false] at hp
    rcases hp with rfl | rfl | rfl <;> refine ⟨by simp [street], rfl⟩
  · intro p hp f hf
    simp only [drive, List.mem_cons, List.not_mem_nil, or_false] at hp
    rcases hp with rfl | rfl | rfl <;> cases f <;> simp_all [carSim, config]

theorem street_ids : evaluationIds street .simAgents = some [1] := rfl

theorem drive_in : ∀ i ∈ [(1 : ℤ)], ∃ p ∈ drive, p.1.id = i := by simp [drive, carSim]

/-- A car of the scene as it is taken to be. -/
def carOf (i : ℤ) (a b c y w : ℝ) : Sim ℝ :=
  ⟨fun | .x => values a b c | .y => List.replicate 91 y | .z => List.replicate 91 0 | .heading => List.replicate 91 0
       | .length => List.replicate 91 2 | .width => List.replicate 91 w | .height => List.replicate 91 1, List.replicate 91 true, i, 1⟩

theorem entity_car (i : ℤ) (a b c y w : ℝ) : entity .simAgents false (carSim i b c y w, carTrack i a y w) = carOf i a b c y w := by
  have e : List.replicate 91 (carState a y w) = List.replicate 11 (carState a y w) ++ List.replicate 80 (carState a y w) := by
    rw [List.replicate_append_replicate]
  have h10 : (List.replicate 91 (carState a y w))[10]? = some (carState a y w) := by simp
  unfold entity carOf
  simp only [Sim.mk.injEq]
  refine ⟨?_, ?_, rfl, rfl⟩
  · funext f
    cases f <;> simp [joined, carTrack, carSim, carState, values]
  · simp [carTrack, carState]

theorem car_at {i : ℤ} {a b c y w : ℝ} {o : Car} (h : carAt (1 / 10) 11 (course (carOf i a b c y w)) = some o) :
    o = ⟨b, y, 2, w, 0, some (|c - a| * 5), true⟩ := by
  have hb : (values a b c)[11]? = some b := by simp [values]
  have ha : (values a b c)[10]? = some a := by simp [values]
  have hc : (values a b c)[12]? = some c := by simp [values]
  have hsp : (Kinematics.linearSpeed (values a b c) (List.replicate 91 y) ((values a b c).map fun _ => 0) (1 / 10))[11]? =
      some (some (|c - a| * 5)) := by
    rw [Kinematics.linearSpeed_some]
    refine ⟨10, (a, y, 0), (c, y, 0), rfl, ?_, ?_, ?_⟩
    · unfold Kinematics.posAt
      simp [ha]
      simp [values]
    · unfold Kinematics.posAt
      simp [hc]
      simp [values]
    · simp only [Kinematics.displacement, sub_self]
      rw [show (c - a) ^ 2 + (0 : ℝ) ^ 2 + 0 ^ 2 = (c - a) ^ 2 by ring, Real.sqrt_sq_eq_abs]
      ring
  unfold carAt course carOf at h
  simp only [hb, hsp, Option.bind_eq_bind, Option.bind_some, Option.pure_def, List.getElem?_replicate] at h
  norm_num at h
  exact h.symm

theorem drive_some (order : List ℤ → List ℤ) (ho : Listing order) :
    ∃ F, compute order street kerb (drive.map Prod.fst) .simAgents false = some F := by
  rw [← Option.isSome_iff_exists, compute_iff_partial ho drive_posed street_ids (by simp) drive_in]
  · refine ⟨⟨_, List.mem_cons_self .., _, rfl, by simp⟩, Or.inr (Or.inl rfl)⟩
  · intro k hk p hp o hat _
    have : ∃ i a b c y w, p = (carSim i b c y w, carTrack i a y w) ∧ (0 : ℝ) < w := by
      simp only [drive, List.mem_cons, List.not_mem_nil, or_false] at hp
      rcases hp with rfl | rfl | rfl
      · exact ⟨_, _, _, _, _, _, rfl, by norm_num⟩
      · exact ⟨_, _, _, _, _, _, rfl, by norm_num⟩
      · exact ⟨_, _, _, _, _, _, rfl, by norm_num⟩
    obtain ⟨i, a, b, c, y, w, rfl, hw⟩ := this
    rw [entity_car] at hat
    obtain ⟨_, _, _, hl, hwd, _⟩ := hat
    simp only [carOf, List.getElem?_replicate, hk, if_true, Option.some.injEq] at hl hwd
    rw [← hl, ← hwd]
    exact ⟨by norm_num, hw⟩

/-- The cars of the scene at the first simulated step. -/
def egoCar : Car := ⟨5, 0, 2, 4, 0, some 50, true⟩
def slowCar : Car := ⟨100, 1, 2, 1, 0, some 0, true⟩
def fastCar : Car := ⟨100, -1, 2, 1, 0, some 100, true⟩

theorem car_of_id {i : ℤ} {o : Car} (h : ∃ p ∈ drive, p.1.id = i ∧ carAt (1 / 10) 11 (course (entity .simAgents false p)) = some o) :
    (i = 1 → o = egoCar) ∧ (i = 2 → o = slowCar) ∧ (i = 3 → o = fastCar) := by
  obtain ⟨p, hp, hi, hc⟩ := h
  simp only [drive, List.mem_cons, List.not_mem_nil, or_false] at hp
  rcases hp with rfl | rfl | rfl <;> rw [entity_car] at hc <;> have hc' := car_at hc <;> subst hi <;> subst hc' <;>
    refine ⟨fun h => ?_, fun h => ?_, fun h => ?_⟩ <;> simp [carSim] at h <;> norm_num [egoCar, slowCar, fastCar]

theorem long_self : maskedLong egoCar egoCar = big - 2 := by
  have hd : longDistance egoCar egoCar = -2 := by
    norm_num [longDistance, egoCar, Interaction.relative, Planar.rotate, Interaction.longOffset, Interaction.yawDiff, Planar.dot]
  rw [Interaction.maskedLong_not]
  · rw [hd]; ring
  · rintro ⟨_, h, _⟩
    rw [hd] at h
    norm_num at h

theorem long_other {o : Car} (h : o = slowCar ∨ o = fastCar) : maskedLong egoCar o = 93 := by
  have hd : longDistance egoCar o = 93 := by
    rcases h with rfl | rfl <;>
      norm_num [longDistance, egoCar, slowCar, fastCar, Interaction.relative, Planar.rotate, Interaction.longOffset, Interaction.yawDiff, Planar.dot]
  have hl : Interaction.latOverlap egoCar o = -(3 / 2) := by
    rcases h with rfl | rfl <;>
      norm_num [Interaction.latOverlap, egoCar, slowCar, fastCar, Interaction.relative, Planar.rotate, Interaction.latOffset, Interaction.yawDiff,
        Planar.dot]
  have hy : Interaction.yawDiff egoCar o = 0 := by rcases h with rfl | rfl <;> simp [Interaction.yawDiff, egoCar, slowCar, fastCar]
  have hv : o.valid = true := by rcases h with rfl | rfl <;> rfl
  rw [Interaction.maskedLong_follows, hd]
  refine ⟨hv, by rw [hd]; norm_num, by rw [hy]; positivity, by rw [hl]; norm_num, Or.inl (by rw [hl]; norm_num)⟩

theorem ttc_two {a b : Car} (ha : a = slowCar ∨ a = fastCar) (hb : b = slowCar ∨ b = fastCar) :
    ttcStep egoCar [egoCar, a, b] = some (closing 93 (some 50) a.speed) := by
  rw [Interaction.ttcStep_eq (o := a), long_other ha]
  · rfl
  · refine ⟨[egoCar], [b], rfl, ?_, ?_⟩
    · intro x hx
      rw [List.mem_singleton] at hx
      subst hx
      rw [long_other ha, long_self]
      norm_num [big]
    · intro x hx
      rw [List.mem_singleton] at hx
      subst hx
      rw [long_other ha, long_other hb]

theorem listing_dedup : Listing List.dedup := ⟨fun l x => List.mem_dedup, List.nodup_dedup⟩

theorem listing_reverse : Listing fun l => l.dedup.reverse := ⟨fun l x => by simp, fun l => by simp [List.nodup_dedup]⟩

/-- C159 does not hold for the times to collision: with the ids of the other objects listed in two orders, the time is 1.86 s and 5 s. -/
theorem compute_order_violated : ∃ (order order' : List ℤ → List ℤ) (s : Scenario ℝ) (m : MapData) (scene : List (Sim ℝ)) (F F' : Features),
    Listing order ∧ Listing order' ∧ compute order s m scene .simAgents false = some F ∧ compute order' s m scene .simAgents false = some F' ∧
    cell F.time 0 0 = some (93 / 50) ∧ cell F'.time 0 0 = some 5 := by
  obtain ⟨F, hF⟩ := drive_some _ listing_dedup
  obtain ⟨F', hF'⟩ := drive_some _ listing_reverse
  refine ⟨_, _, _, _, _, F, F', listing_dedup, listing_reverse, hF, hF', ?_, ?_⟩
  · obtain ⟨cars, ego, hc, he, ht⟩ := compute_time listing_dedup drive_posed street_ids (by simp) drive_in hF (k := 0) (t := 0) (by simp)
      (by norm_num [scored])
    have e : ([1] : List ℤ) ++ (((drive.map fun p => p.1.id).filter fun i => i ∉ [(1 : ℤ)]).dedup) = [1, 2, 3] := by decide
    rw [e] at hc
    cases hc with
    | cons h1 hc => cases hc with
      | cons h2 hc => cases hc with
        | cons h3 hc => cases hc with
          | nil =>
            have e1 := (car_of_id h1).1 rfl
            have e2 := (car_of_id h2).2.1 rfl
            have e3 := (car_of_id h3).2.2 rfl
            subst e1 e2 e3
            simp only [List.getElem?_cons_zero, Option.some.injEq] at he
            rw [ht, ← he, ttc_two (Or.inl rfl) (Or.inr rfl)]
            norm_num [closing, slowCar]
  · obtain ⟨cars, ego, hc, he, ht⟩ := compute_time listing_reverse drive_posed street_ids (by simp) drive_in hF' (k := 0) (t := 0) (by simp)
      (by norm_num [scored])
    have e : ([1] : List ℤ) ++ (((drive.map fun p => p.1.id).filter fun i => i ∉ [(1 : ℤ)]).dedup).reverse = [1, 3, 2] := by decide
    rw [e] at hc
    cases hc with
    | cons h1 hc => cases hc with
      | cons h2 hc => cases hc with
        | cons h3 hc => cases hc with
          | nil =>
            have e1 := (car_of_id h1).1 rfl
            have e2 := (car_of_id h2).2.2 rfl
            have e3 := (car_of_id h3).2.1 rfl
            subst e1 e2 e3
            simp only [List.getElem?_cons_zero, Option.some.injEq] at he
            rw [ht, ← he, ttc_two (Or.inr rfl) (Or.inl rfl)]
            norm_num [closing, fastCar]

/-- The scene meets the hypotheses of `compute_spec` and its features have 80 columns. -/
theorem compute_case : ∃ F, compute List.dedup street kerb (drive.map Prod.fst) .simAgents false = some F ∧ F.id = [1] ∧ F.nearest.length = 80 := by
  obtain ⟨F, hF⟩ := drive_some _ listing_dedup
  obtain ⟨h1, _, h2, _⟩ := compute_spec listing_dedup drive_posed street_ids (by simp) drive_in hF
  exact ⟨F, hF, h1, h2.1⟩

/-- The logged scene of the street has features, and so have its rollouts; the displacement in the log is zero. -/
theorem rollouts_case : ∃ L Fs, rollouts List.dedup street kerb [drive.map Prod.fst, drive.map Prod.fst] .simAgents = some (L, Fs) ∧
    Fs.length = 2 ∧ L.error = [some 0] := by
  have hags : agents street = street.tracks := by
    unfold agents
    rw [List.filter_eq_self]
    intro t ht
    simp only [street, List.mem_cons, List.not_mem_nil, or_false] at ht
    rcases ht with rfl | rfl | rfl <;> simp [carTrack, carState]
  have hin : ∀ i ∈ [(1 : ℤ)], ∃ t ∈ agents street, t.id = i := by rw [hags]; simp [street, carTrack]
  have hag : agents street ≠ [] := by rw [hags]; simp [street]
  obtain ⟨F, hF⟩ := drive_some _ listing_dedup
  have hL : ∃ L, compute List.dedup street kerb (((agents street).map fun t => (follow .simAgents t, t)).map Prod.fst) .simAgents true = some L := by
    rw [← Option.isSome_iff_exists, compute_iff_partial listing_dedup (logged_posed street_complete .simAgents) street_ids (by simp)]
    · refine ⟨⟨_, List.mem_cons_self .., _, rfl, by simp⟩, Or.inr (Or.inl rfl)⟩
    · intro i hi
      obtain ⟨t, ht, e⟩ := hin i hi
      exact ⟨_, List.mem_map.2 ⟨t, ht, rfl⟩, by rw [← e]; rfl⟩
    · intro k hk p hp o hat _
      obtain ⟨t, ht, rfl⟩ := List.mem_map.1 hp
      rw [hags] at ht
      obtain ⟨_, _, _, hl, hwd, _⟩ := hat
      have hmem : o.length ∈ (entity .simAgents true (follow .simAgents t, t)).num .length := List.mem_of_getElem? hl
      have hmem' : o.width ∈ (entity .simAgents true (follow .simAgents t, t)).num .width := List.mem_of_getElem? hwd
      simp only [street, List.mem_cons, List.not_mem_nil, or_false] at ht
      rcases ht with rfl | rfl | rfl <;> simp [entity, joined, carTrack, carState, follow] at hmem hmem' <;> rw [hmem, hmem'] <;> norm_num
  obtain ⟨L, hL⟩ := hL
  refine ⟨L, [F, F], ?_, rfl, ?_⟩
  · exact (rollouts_spec (scenes := [drive, drive]) listing_dedup street_complete street_ids (by simp) hin (by
      intro pairs hp
      simp only [List.mem_cons, List.not_mem_nil, or_false, or_self] at hp
      subst hp
      exact ⟨drive_posed, drive_in⟩) L [F, F]).2
      ⟨by simp, ⟨_, logged_scene street_complete hag .simAgents, hL⟩, .cons hF (.cons hF .nil)⟩
  · exact logged_error listing_dedup street_complete street_ids (by simp) hin (logged_scene street_complete hag .simAgents) hL

/-- A car to be predicted that is not there at the current step. -/
def absent : Scenario ℝ := ⟨[carTrack 1 0 0 4, ⟨2, 1, List.replicate 91 ⟨fun _ => 1, false⟩⟩], 0, [1]⟩

/-- C160 does not hold: a scenario whose tracks to predict are not all valid at the current step has no features, whatever is submitted. -/
theorem rollouts_unscored_violated (order : List ℤ → List ℤ) (m : MapData) (scenes : List (List (Sim ℝ))) :
    Complete absent 91 ∧ agents absent ≠ [] ∧ rollouts order absent m scenes .simAgents = none := by
  have hc : Complete absent 91 := ⟨by simp [absent], by norm_num, by simp [absent, carTrack], by simp [absent, carTrack]⟩
  have hags : agents absent = [carTrack 1 0 0 4] := by simp [agents, absent, carTrack, carState]
  refine ⟨hc, by rw [hags]; simp, ?_⟩
  have he : evaluationIds absent .simAgents = some [1, 2] := rfl
  exact rollouts_unscored hc he (i := 2) (by simp) (by rw [hags]; simp [carTrack]) scenes

end

end Verif.SimFeatures
