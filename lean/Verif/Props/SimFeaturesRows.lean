import Verif.Props.SimFeatures

/-! C158: every row of the features belongs to the evaluated object of the same position, and every column to a simulated step. -/

namespace Verif.SimFeatures

open Verif.SimAgents Verif.ListM
open Verif.Interaction (Obj Car big pairDistance roundingFactor Scene closing maskedLong carAt whereTrue)

noncomputable section

/-- The entry for a step and an object of a feature that is computed for all objects of a step at once. -/
def cell {β : Type} (l : List (List β)) (t k : ℕ) : Option β := (l[t]?).bind fun r => r[k]?

/-- The first step that is scored: the history of simulated agents is not. -/
def start : Challenge → ℕ
  | .simAgents => 11
  | .scenarioGen => 0

/-- The number of steps that are scored. -/
def scored : Challenge → ℕ
  | .simAgents => 80
  | .scenarioGen => 91

theorem start_scored (ch : Challenge) : start ch + scored ch = 91 := by cases ch <;> rfl

theorem cutoff_eq (ch : Challenge) : cutoff ch = start ch := by cases ch <;> rfl

/-- The distance of an object to the nearest other one. -/
def IsNearest (a : Obj) (others : Obj → Prop) (d : ℝ) : Prop :=
  (a.valid = false → d = big) ∧
  (a.valid = true → (∃ b, others b ∧ b.valid = true) → IsLeast {x | ∃ b, others b ∧ b.valid = true ∧ pairDistance (7 / 10) a b = some x} d) ∧
  (a.valid = true → (∀ b, others b → b.valid = false) → d = big - min a.length a.width)

/-- The time to collision of an object with one of those that are ranked nearest in front. -/
def IsTime (a : Car) (all : Car → Prop) (τ : ℝ) : Prop :=
  ∃ o, all o ∧ (∀ o', all o' → maskedLong a o ≤ maskedLong a o') ∧ τ = closing (maskedLong a o) a.speed o.speed

/-- An object at a step. -/
def AtStep (r : Sim ℝ) (s : ℕ) (o : Obj) : Prop :=
  (r.num .x)[s]? = some o.x ∧ (r.num .y)[s]? = some o.y ∧ (r.num .z)[s]? = some o.z ∧ (r.num .length)[s]? = some o.length ∧
    (r.num .width)[s]? = some o.width ∧ (r.num .height)[s]? = some o.height ∧ (r.num .heading)[s]? = some o.heading ∧ r.valid[s]? = some o.valid

theorem objAt_iff {r : Sim ℝ} {s : ℕ} {o : Obj} : objAt s r = some o ↔ AtStep r s o := by
  unfold objAt AtStep
  simp only [Option.bind_eq_bind, Option.bind_eq_some_iff, Option.pure_def, Option.some.injEq]
  constructor
  · rintro ⟨x, hx, y, hy, z, hz, l, hl, w, hw, hh, hhh, a, ha, v, hv, rfl⟩
    exact ⟨hx, hy, hz, hl, hw, hhh, ha, hv⟩
  · rintro ⟨hx, hy, hz, hl, hw, hhh, ha, hv⟩
    exact ⟨_, hx, _, hy, _, hz, _, hl, _, hw, _, hhh, _, ha, _, hv, rfl⟩

/-- The course of an object in the plane. -/
def course (r : Sim ℝ) : Interaction.Traj where
  x := r.num .x
  y := r.num .y
  length := r.num .length
  width := r.num .width
  heading := r.num .heading
  valid := r.valid

/-- The speeds and accelerations of a row are those of the object at the scored steps. -/
def IsKinematic (r : Sim ℝ) (c : ℕ) (k : Kinematics.Features) : Prop :=
  ∀ t, k.speed[t]? = (Kinematics.linearSpeed (r.num .x) (r.num .y) (r.num .z) (1 / 10))[c + t]? ∧
    k.accel[t]? = (Kinematics.linearAccel (r.num .x) (r.num .y) (r.num .z) (1 / 10))[c + t]? ∧
    k.turn[t]? = (Kinematics.features (r.num .x) (r.num .y) (r.num .z) (r.num .heading) (1 / 10)).turn[c + t]? ∧
    k.turnAccel[t]? = (Kinematics.features (r.num .x) (r.num .y) (r.num .z) (r.num .heading) (1 / 10)).turnAccel[c + t]?

theorem cut_kinematic (r : Sim ℝ) (c : ℕ) : IsKinematic r c (cut c (kinematic r)) := by
  intro t
  simp [cut, kinematic, Kinematics.features, duration]

/-- The road edges of a map, in their order. -/
theorem roadEdges_spec (m : MapData) : roadEdges m = m.features.flatMap fun f => f.edge.toList := by
  unfold roadEdges
  induction m.features with
  | nil => rfl
  | cons f l ih =>
    rw [List.filterMap_cons, List.flatMap_cons, ← ih]
    cases f.edge <;> rfl

/-- The lanes that count for traffic lights: those of surface streets, with their ids. -/
theorem lanes_spec (m : MapData) (i : ℤ) (l : List Road.P3) : (i, l) ∈ lanes m ↔ ∃ f ∈ m.features, f.id = i ∧ f.lane = some (2, l) := by
  unfold lanes
  rw [List.mem_filterMap]
  constructor
  · rintro ⟨f, hf, h⟩
    rw [Option.bind_eq_some_iff] at h
    obtain ⟨⟨ty, l'⟩, h1, h2⟩ := h
    split at h2
    next h3 =>
      simp only [Option.some.injEq, Prod.mk.injEq] at h2
      obtain ⟨rfl, rfl⟩ := h2
      dsimp only at h3
      subst h3
      exact ⟨f, hf, rfl, h1⟩
    next => simp at h2
  · rintro ⟨f, hf, rfl, h⟩
    exact ⟨f, hf, by simp [h]⟩

theorem objAt_some {r : Sim ℝ} {n s : ℕ} (hv : r.valid.length = n) (hf : ∀ f, (r.num f).length = n) (hs : s < n) :
    ∃ o, objAt s r = some o := by
  have e : ∀ f, (r.num f)[s]? = some ((r.num f)[s]'(by rw [hf]; exact hs)) := fun f => List.getElem?_eq_getElem _
  have ev : r.valid[s]? = some (r.valid[s]'(by rw [hv]; exact hs)) := List.getElem?_eq_getElem _
  unfold objAt
  rw [e, e, e, e, e, e, e, ev]
  exact ⟨_, rfl⟩

theorem speed_length (x y z : List ℝ) (n : ℕ) (hn : 2 ≤ n) (hx : x.length = n) (hy : y.length = n) (hz : z.length = n) (dt : ℝ) :
    (Kinematics.linearSpeed x y z dt).length = n := by
  have hd : ∀ x : List ℝ, x.length = n → (Kinematics.delta x).length = n := by
    intro x hx
    simp [Kinematics.delta, Kinematics.centralDiff, Kinematics.central, hx]
    omega
  simp [Kinematics.linearSpeed, hd x hx, hd y hy, hd z hz]

theorem carAt_some {r : Sim ℝ} {n s : ℕ} (hn : 2 ≤ n) (hv : r.valid.length = n) (hf : ∀ f, (r.num f).length = n) (hs : s < n) :
    ∃ o, carAt duration s (traj r) = some o := by
  have e : ∀ f, (r.num f)[s]? = some ((r.num f)[s]'(by rw [hf]; exact hs)) := fun f => List.getElem?_eq_getElem _
  have ev : r.valid[s]? = some (r.valid[s]'(by rw [hv]; exact hs)) := List.getElem?_eq_getElem _
  have hsp := speed_length (r.num .x) (r.num .y) ((r.num .x).map fun _ => 0) n hn (hf .x) (hf .y) (by simp [hf]) duration
  have es : (Kinematics.linearSpeed (r.num .x) (r.num .y) ((r.num .x).map fun _ => 0) duration)[s]? =
      some ((Kinematics.linearSpeed (r.num .x) (r.num .y) ((r.num .x).map fun _ => 0) duration)[s]'(by rw [hsp]; exact hs)) :=
    List.getElem?_eq_getElem _
  unfold carAt traj
  dsimp only
  rw [e, e, e, e, e, es, ev]
  exact ⟨_, rfl⟩

theorem mapM_get {α β : Type} {f : α → Option β} {l : List α} {r : List β} (h : l.mapM f = some r) {k : ℕ} {a : α} (ha : l[k]? = some a) :
    ∃ b, r[k]? = some b ∧ f a = some b := Interaction.forall₂_get (mapM_forall₂ h) ha

theorem mapM_get' {α β : Type} {f : α → Option β} {l : List α} {r : List β} (h : l.mapM f = some r) {k : ℕ} {b : β} (hb : r[k]? = some b) :
    ∃ a, l[k]? = some a ∧ f a = some b := Interaction.forall₂_get' (mapM_forall₂ h) hb

theorem cell_drop {β : Type} (l : List (List β)) (c t k : ℕ) : cell (l.drop c) t k = cell l (c + t) k := by
  unfold cell
  rw [List.getElem?_drop]

theorem cell_map {β γ : Type} (f : β → γ) (l : List (List β)) (t k : ℕ) : cell (l.map fun r => r.map f) t k = (cell l t k).map f := by
  unfold cell
  rw [List.getElem?_map]
  cases l[t]? <;> simp

theorem frontMask_length (a b : ℕ) : (frontMask a b).length = a + b := by simp [frontMask]

theorem range_get {n s : ℕ} (h : s < n) : (List.range n)[s]? = some s := by simp [h]

open Classical in
/-- C158: the features of a scene.  The rows belong to the evaluated ids in their order: the type, validity, displacement, speeds and
accelerations, distances, times and violations in row `k` are those of the object whose id is at position `k`.  Column `t` belongs to the step
`t` after the history.  The distances and times to collision count all objects of the scene, evaluated or not. -/
theorem compute_spec {order : List ℤ → List ℤ} (ho : Listing order) {s : Scenario ℝ} {m : MapData} {ch : Challenge}
    {pairs : List (Sim ℝ × Track ℝ)} (h : Posed s ch pairs) {ids : List ℤ} (he : evaluationIds s ch = some ids) (hne : ids ≠ [])
    (hin : ∀ i ∈ ids, ∃ p ∈ pairs, p.1.id = i) {lv : Bool} {F : Features}
    (hF : compute order s m (pairs.map Prod.fst) ch lv = some F) :
    F.id = ids ∧ (F.type.length = ids.length ∧ F.valid.length = ids.length ∧ F.error.length = ids.length ∧ F.kinematic.length = ids.length ∧
      F.redLight.length = ids.length) ∧
    (F.nearest.length = scored ch ∧ F.collision.length = scored ch ∧ F.time.length = scored ch ∧ F.edge.length = scored ch ∧
      F.offroad.length = scored ch) ∧
    ∀ k i, ids[k]? = some i → ∃ p ∈ pairs, p.1.id = i ∧
      F.type[k]? = some (entity ch lv p).type ∧
      F.valid[k]? = some ((if lv then p.2.states.map State.valid else (entity ch lv p).valid).drop (start ch)) ∧
      (ch = .scenarioGen → F.error[k]? = some (some 0)) ∧
      (ch = .simAgents → F.error[k]? = some (Kinematics.averageDisplacement (positions (entity ch lv p))
        (p.2.states.map fun st => (st.num .x, st.num .y, st.num .z)) (p.2.states.map State.valid))) ∧
      (∃ K, F.kinematic[k]? = some K ∧ IsKinematic (entity ch lv p) (start ch) K) ∧
      (lanes m = [] ∨ m.signals = [] → F.redLight[k]? = some (List.replicate (scored ch) false)) ∧
      (lanes m ≠ [] → m.signals ≠ [] → ∃ out, Road.redLight order (((entity ch lv p).num .x).zip ((entity ch lv p).num .y))
        (entity ch lv p).valid ((lanes m).map Prod.snd) ((lanes m).map Prod.fst) m.signals = some out ∧ F.redLight[k]? = some (out.drop (start ch))) ∧
      ∀ t < scored ch, ∃ a c, AtStep (entity ch lv p) (start ch + t) a ∧ carAt (1 / 10) (start ch + t) (course (entity ch lv p)) = some c ∧
        (∃ d, cell F.edge t k = some d ∧ cell F.offroad t k = some (decide (0 < d)) ∧
          Road.roadEdge (m.features.flatMap fun f => f.edge.toList) ⟨![a.x, a.y, a.z], ![a.length, a.width, a.height], a.heading⟩ a.valid = some d) ∧
        (∃ d, cell F.nearest t k = some d ∧ cell F.collision t k = some (decide (d < 0)) ∧
          ((∃ objs, List.Forall₂ (fun q o => AtStep (entity ch lv q) (start ch + t) o) pairs objs ∧ Scene (7 / 10) objs) →
            IsNearest a (fun b => ∃ q ∈ pairs, q.1.id ≠ i ∧ AtStep (entity ch lv q) (start ch + t) b) d)) ∧
        ∃ τ, cell F.time t k = some τ ∧
          IsTime c (fun b => ∃ q ∈ pairs, carAt (1 / 10) (start ch + t) (course (entity ch lv q)) = some b) τ := by
  obtain ⟨eval, rest, harr, hrest, hc⟩ := compute_eq ho (m := m) h he hne hin lv
  rw [hc] at hF
  have hids := harr.ids
  have hlen : eval.length = ids.length := by rw [← hids, List.length_map]
  have hmem : ∀ q, q ∈ eval ++ rest ↔ q ∈ pairs := fun q => harr.perm.mem_iff
  have hnod : ((eval ++ rest).map fun p => p.1.id).Nodup := (harr.perm.map _).nodup_iff.2 h.ids
  unfold arranged at hF
  simp only [Option.bind_eq_bind, Option.bind_eq_some_iff, Option.pure_def, Option.some.injEq] at hF
  obtain ⟨near, hnear, time, htime, edge, hedge, light, hlight, rfl⟩ := hF
  have hl1 : near.length = 91 := by
    rw [← (mapM_forall₂ hnear).length_eq, List.length_range]
  have hl2 : time.length = 91 := by
    rw [← (mapM_forall₂ htime).length_eq, List.length_range]
  have hl3 : edge.length = 91 := by
    rw [← (mapM_forall₂ hedge).length_eq, List.length_range]
  have hl4 : light.length = ids.length := by
    unfold lightFor at hlight
    split at hlight
    · rw [← (mapM_forall₂ hlight).length_eq, List.length_map, hlen]
    · rw [Option.some.injEq] at hlight
      subst hlight
      simp [hlen]
  have hss := start_scored ch
  rw [cutoff_eq]
  refine ⟨hids, ⟨?_, ?_, ?_, ?_, ?_⟩, ⟨?_, ?_, ?_, ?_, ?_⟩, ?_⟩
  · simp [hlen]
  · simp [hlen]
  · simp [hlen]
  · simp [hlen]
  · simp [hl4]
  · rw [List.length_drop]; omega
  · rw [List.length_map, List.length_drop]; omega
  · rw [List.length_drop]; omega
  · rw [List.length_drop]; omega
  · rw [List.length_map, List.length_drop]; omega
  intro k i hk
  have hp : ∃ p, eval[k]? = some p ∧ p.1.id = i := by
    rw [← hids, List.getElem?_map] at hk
    cases hp : eval[k]? with
    | none => simp [hp] at hk
    | some p => exact ⟨p, rfl, by simpa [hp] using hk⟩
  obtain ⟨p, hp, hpi⟩ := hp
  have hpe := List.mem_of_getElem? hp
  have hpp : p ∈ pairs := (hmem p).1 (List.mem_append_left _ hpe)
  have hkl : k < eval.length := (List.getElem?_eq_some_iff.1 hp).1
  have hE : (eval.map (entity ch lv))[k]? = some (entity ch lv p) := by rw [List.getElem?_map, hp]; rfl
  have hA : (eval ++ rest)[k]? = some p := by rw [List.getElem?_append_left hkl, hp]
  have hAE : ((eval ++ rest).map (entity ch lv))[k]? = some (entity ch lv p) := by rw [List.getElem?_map, hA]; rfl
  have hmask : (frontMask eval.length rest.length).length = ((eval ++ rest).map (entity ch lv)).length := by simp [frontMask]
  have hwt : whereTrue (frontMask eval.length rest.length) = List.range eval.length := whereTrue_front _ _
  refine ⟨p, hpp, hpi, by simp [hp], by simp [hp], fun hch => by rw [List.getElem?_map, hp, Option.map_some, if_neg (by rw [hch]; simp)], fun hch => ?_,
    ⟨_, by rw [List.getElem?_map, hp]; rfl, cut_kinematic _ _⟩, ?_, ?_, ?_⟩
  · rw [List.getElem?_map, hp, Option.map_some, if_pos hch]
    have hpos : positions (logged p.2) = p.2.states.map fun st => (st.num .x, st.num .y, st.num .z) := by
      simp only [positions, logged]
      rw [List.zip_map', List.zip_map']
    rw [← hpos]
    rfl
  · intro hno
    unfold lightFor at hlight
    rw [if_neg (by tauto), Option.some.injEq] at hlight
    subst hlight
    simp only [List.getElem?_map, hp, Option.map_some, List.drop_replicate]
    congr 2
    omega
  · intro h1 h2
    unfold lightFor at hlight
    rw [if_pos ⟨h1, h2⟩] at hlight
    obtain ⟨out, ho1, ho2⟩ := mapM_get hlight hE
    exact ⟨out, ho2, by rw [List.getElem?_map, ho1]; rfl⟩
  · intro t ht
    have hst : start ch + t < 91 := by omega
    obtain ⟨hv, hf⟩ := entity_len h hpp lv
    obtain ⟨a, ha⟩ := objAt_some hv hf hst
    obtain ⟨c, hc⟩ := carAt_some (by norm_num) hv hf hst
    refine ⟨a, c, objAt_iff.1 ha, hc, ?_, ?_, ?_⟩
    · obtain ⟨er, he1, he2⟩ := mapM_get hedge (range_get hst)
      obtain ⟨d, hd1, hd2⟩ := mapM_get he2 hE
      have hcell : cell edge (start ch + t) k = some d := by simp [cell, he1, hd1]
      refine ⟨d, by rw [cell_drop, hcell], ?_, ?_⟩
      · rw [cell_map, cell_drop, hcell]
        rfl
      · unfold edgeAt at hd2
        rw [ha, roadEdges_spec] at hd2
        exact hd2
    · obtain ⟨nr, hn1, hn2⟩ := mapM_get hnear (range_get hst)
      rw [Option.bind_eq_bind, Option.bind_eq_some_iff] at hn2
      obtain ⟨os, hos, hn2⟩ := hn2
      have hosl : os.length = (eval ++ rest).length := by rw [← (mapM_forall₂ hos).length_eq, List.length_map]
      have hml : (frontMask eval.length rest.length).length = os.length := by rw [hosl, frontMask_length, List.length_append]
      have hwk : (whereTrue (frontMask eval.length rest.length))[k]? = some k := by rw [hwt]; exact range_get hkl
      obtain ⟨hr1, hr2⟩ := Interaction.nearest_contributes hml hn2
      obtain ⟨v, hv1, _⟩ := hr2 k k hwk
      have hcell : cell near (start ch + t) k = some v := by simp [cell, hn1, hv1]
      refine ⟨v, by rw [cell_drop, hcell], by rw [cell_map, cell_drop, hcell]; rfl, ?_⟩
      simp only [← objAt_iff]
      rintro ⟨objs, hobjs, hscene⟩
      replace hobjs : pairs.mapM (fun q => objAt (start ch + t) (entity ch lv q)) = some objs := forall₂_mapM hobjs
      have hosm : ∀ b, b ∈ os ↔ b ∈ objs := by
        intro b
        have h1 : ∀ {l : List (Sim ℝ × Track ℝ)} {r : List Obj}, l.mapM (fun q => objAt (start ch + t) (entity ch lv q)) = some r →
            ∀ b, b ∈ r ↔ ∃ q ∈ l, objAt (start ch + t) (entity ch lv q) = some b := by
          intro l r hr b
          constructor
          · intro hb
            obtain ⟨j, hj⟩ := List.mem_iff_getElem?.1 hb
            obtain ⟨q, hq1, hq2⟩ := mapM_get' hr hj
            exact ⟨q, List.mem_of_getElem? hq1, hq2⟩
          · rintro ⟨q, hq1, hq2⟩
            obtain ⟨j, hj⟩ := List.mem_iff_getElem?.1 hq1
            obtain ⟨b', hb1, hb2⟩ := mapM_get hr hj
            rw [hq2, Option.some.injEq] at hb2
            exact hb2 ▸ List.mem_of_getElem? hb1
        have hos' : (eval ++ rest).mapM (fun q => objAt (start ch + t) (entity ch lv q)) = some os := by
          rw [← hos, List.mapM_map]
          rfl
        rw [h1 hos' b, h1 hobjs b]
        simp only [hmem]
      have hsc : Scene roundingFactor os := ⟨fun o ho => hscene.proper o ((hosm o).1 ho),
        fun a ha b hb => hscene.near a ((hosm a).1 ha) b ((hosm b).1 hb)⟩
      obtain ⟨_, hspec⟩ := Interaction.nearest_spec hml hsc hn2
      obtain ⟨v', a', hv', ha', h1, h2, h3⟩ := hspec k k hwk
      rw [hv1, Option.some.injEq] at hv'
      subst hv'
      have haa : os[k]? = some a := by
        obtain ⟨b, hb1, hb2⟩ := mapM_get hos hAE
        rw [ha, Option.some.injEq] at hb2
        rw [hb1, hb2]
      rw [haa, Option.some.injEq] at ha'
      subst ha'
      have hother : ∀ b, (∃ j, j ≠ k ∧ os[j]? = some b) ↔ ∃ q ∈ pairs, q.1.id ≠ i ∧ objAt (start ch + t) (entity ch lv q) = some b := by
        intro b
        constructor
        · rintro ⟨j, hj1, hj2⟩
          obtain ⟨o, ho1, ho2⟩ := mapM_get' hos hj2
          rw [List.getElem?_map] at ho1
          cases hq : (eval ++ rest)[j]? with
          | none => simp [hq] at ho1
          | some q =>
            simp only [hq, Option.map_some, Option.some.injEq] at ho1
            subst ho1
            refine ⟨q, (hmem q).1 (List.mem_of_getElem? hq), ?_, ho2⟩
            intro hqi
            apply hj1
            have hjl := (List.getElem?_eq_some_iff.1 hq).1
            have e1 : ((eval ++ rest).map fun p => p.1.id)[j]? = some i := by rw [List.getElem?_map, hq]; simp [hqi]
            have e2 : ((eval ++ rest).map fun p => p.1.id)[k]? = some i := by rw [List.getElem?_map, hA]; simp [hpi]
            exact (List.nodup_iff_getElem?_ne_getElem?.1 hnod |> fun hh => by
              by_contra hne'
              rcases Nat.lt_or_gt_of_ne hne' with hlt | hlt
              · exact hh j k hlt (by simp; have := hkl; simp at *; omega) (e1.trans e2.symm)
              · exact hh k j hlt (by simpa using hjl) (e2.trans e1.symm))
        · rintro ⟨q, hq1, hq2, hq3⟩
          obtain ⟨j, hj⟩ := List.mem_iff_getElem?.1 ((hmem q).2 hq1)
          have hj' : ((eval ++ rest).map (entity ch lv))[j]? = some (entity ch lv q) := by rw [List.getElem?_map, hj]; rfl
          obtain ⟨b', hb1, hb2⟩ := mapM_get hos hj'
          rw [hq3, Option.some.injEq] at hb2
          refine ⟨j, ?_, hb2 ▸ hb1⟩
          rintro rfl
          rw [hA, Option.some.injEq] at hj
          exact hq2 (hj ▸ hpi)
      refine ⟨h1, ?_, ?_⟩
      · rintro hva ⟨b, hb1, hb2⟩
        obtain ⟨j, hj1, hj2⟩ := (hother b).2 hb1
        have := h2 hva ⟨j, b, hj1, hj2, hb2⟩
        convert this using 1
        ext x
        constructor
        · rintro ⟨b, hb1, hb2, hb3⟩
          obtain ⟨j, hj1, hj2⟩ := (hother b).2 hb1
          exact ⟨j, b, hj1, hj2, hb2, hb3⟩
        · rintro ⟨j, b, hj1, hj2, hb2, hb3⟩
          exact ⟨b, (hother b).1 ⟨j, hj1, hj2⟩, hb2, hb3⟩
      · intro hva hno
        exact h3 hva fun j b hj1 hj2 => hno b ((hother b).1 ⟨j, hj1, hj2⟩)
    · obtain ⟨tr, ht1, ht2⟩ := mapM_get htime (range_get hst)
      unfold Interaction.timeToCollision at ht2
      rw [Option.bind_eq_bind, Option.bind_eq_some_iff] at ht2
      obtain ⟨cars, hcars, ht2⟩ := ht2
      rw [Option.bind_eq_some_iff] at ht2
      obtain ⟨egos, hegos, ht2⟩ := ht2
      have hT : (((eval ++ rest).map (entity ch lv)).map traj)[k]? = some (traj (entity ch lv p)) := by rw [List.getElem?_map, hAE]; rfl
      obtain ⟨c', hc1, hc2⟩ := mapM_get hcars hT
      rw [hc, Option.some.injEq] at hc2
      subst hc2
      rw [hwt] at hegos
      obtain ⟨c'', hc3, hc4⟩ := mapM_get hegos (range_get hkl)
      rw [hc1, Option.some.injEq] at hc4
      subst hc4
      obtain ⟨τ, hτ1, hτ2⟩ := mapM_get ht2 hc3
      refine ⟨τ, by rw [cell_drop]; simp [cell, ht1, hτ1], ?_⟩
      have hcne : cars ≠ [] := by rintro rfl; simp at hc1
      obtain ⟨o, hof⟩ := Road.exists_isFirst hcne (maskedLong c)
      rw [Interaction.ttcStep_eq hof, Option.some.injEq] at hτ2
      have hcm : ∀ b, b ∈ cars ↔ ∃ q ∈ pairs, carAt duration (start ch + t) (traj (entity ch lv q)) = some b := by
        intro b
        constructor
        · intro hb
          obtain ⟨j, hj⟩ := List.mem_iff_getElem?.1 hb
          obtain ⟨q, hq1, hq2⟩ := mapM_get' hcars hj
          rw [List.map_map] at hq1
          obtain ⟨q', hq3, rfl⟩ := List.mem_map.1 (List.mem_of_getElem? hq1)
          exact ⟨q', (hmem q').1 hq3, hq2⟩
        · rintro ⟨q, hq1, hq2⟩
          have : traj (entity ch lv q) ∈ ((eval ++ rest).map (entity ch lv)).map traj :=
            List.mem_map.2 ⟨_, List.mem_map.2 ⟨q, (hmem q).2 hq1, rfl⟩, rfl⟩
          obtain ⟨j, hj⟩ := List.mem_iff_getElem?.1 this
          obtain ⟨b', hb1, hb2⟩ := mapM_get hcars hj
          rw [hq2, Option.some.injEq] at hb2
          exact hb2 ▸ List.mem_of_getElem? hb1
      exact ⟨o, (hcm o).1 hof.mem, fun o' ho' => hof.le ((hcm o').2 ho'), hτ2.symm⟩

end

end Verif.SimFeatures
