import Verif.Props.SimFeaturesRows
import Verif.Lemmas.PolygonDist

/-! C159: whether the features depend on the order in which Python lists the ids of the objects that are not evaluated. -/

namespace Verif.SimFeatures

open Verif.SimAgents Verif.ListM
open Verif.Interaction (Obj Car big pairDistance roundingFactor Scene closing maskedLong carAt whereTrue maskedDistance ttcStep)

noncomputable section

theorem least_perm {l l' : List ℝ} (h : l.Perm l') : Planar.least l = Planar.least l' := by
  by_cases hne : l = []
  · subst hne
    rw [List.nil_perm.1 h]
  · have hne' : l' ≠ [] := by
      rintro rfl
      exact hne (List.perm_nil.1 h)
    obtain ⟨a, ha, e, hmin⟩ := Planar.least_spec hne
    obtain ⟨b, hb, e', hmin'⟩ := Planar.least_spec hne'
    rw [e, e', le_antisymm (hmin b (h.mem_iff.2 hb)) (hmin' a (h.mem_iff.1 ha))]

theorem mapM_perm {α β : Type} {f : α → Option β} {l l' : List α} (h : l.Perm l') : ∀ {r : List β}, l.mapM f = some r →
    ∃ r', l'.mapM f = some r' ∧ r.Perm r' := by
  induction h with
  | nil => intro r hr; exact ⟨r, hr, .refl _⟩
  | cons a _ ih =>
    intro r hr
    cases mapM_forall₂ hr with
    | cons h1 h2 =>
      obtain ⟨r', h3, h4⟩ := ih (forall₂_mapM h2)
      exact ⟨_, forall₂_mapM (.cons h1 (mapM_forall₂ h3)), h4.cons _⟩
  | swap a b l =>
    intro r hr
    cases mapM_forall₂ hr with
    | cons h1 h2 =>
      cases h2 with
      | cons h3 h4 => exact ⟨_, forall₂_mapM (.cons h3 (.cons h1 h4)), .swap _ _ _⟩
  | trans _ _ ih1 ih2 =>
    intro r hr
    obtain ⟨r', h1, h2⟩ := ih1 hr
    obtain ⟨r'', h3, h4⟩ := ih2 h1
    exact ⟨r'', h3, h2.trans h4⟩

theorem mapM_congr_mem {α β : Type} {f g : α → Option β} {l : List α} (h : ∀ a ∈ l, f a = g a) : l.mapM f = l.mapM g := by
  induction l with
  | nil => rfl
  | cons a l ih => rw [List.mapM_cons, List.mapM_cons, h a (by simp), ih fun b hb => h b (by simp [hb])]

theorem mapM_append_iff {α β : Type} {f : α → Option β} {a b : List α} {r : List β} : (a ++ b).mapM f = some r ↔
    ∃ ra rb, a.mapM f = some ra ∧ b.mapM f = some rb ∧ r = ra ++ rb := by
  rw [List.mapM_append]
  simp only [Option.bind_eq_bind, Option.bind_eq_some_iff, Option.pure_def, Option.some.injEq]
  constructor
  · rintro ⟨ra, h1, rb, h2, rfl⟩
    exact ⟨ra, rb, h1, h2, rfl⟩
  · rintro ⟨ra, rb, h1, h2, rfl⟩
    exact ⟨ra, h1, rb, h2, rfl⟩

/-- The distances of an evaluated object to objects at later positions. -/
theorem maskedDistance_later {f : ℝ} {a : Obj × ℕ} {r : List Obj} {n : ℕ} (h : a.2 < n) :
    (r.zipIdx n).mapM (maskedDistance f a) = r.mapM fun o => maskedDistance f a (o, n) := by
  have key : ∀ (r : List Obj) (k : ℕ), a.2 < k → (r.zipIdx k).mapM (maskedDistance f a) = r.mapM fun o => maskedDistance f a (o, n) := by
    intro r
    induction r with
    | nil => intro k _; rfl
    | cons o r ih =>
      intro k hk
      rw [List.zipIdx_cons, List.mapM_cons, List.mapM_cons, ih (k + 1) (by omega)]
      have : maskedDistance f a (o, k) = maskedDistance f a (o, n) := by
        unfold maskedDistance
        dsimp only
        rw [if_neg (show ¬ a.2 = k by omega), if_neg (show ¬ a.2 = n by omega)]
      rw [this]
  exact key r n h

/-- The order of the objects that are not evaluated does not matter for the distances. -/
theorem nearest_perm {f : ℝ} {e r r' : List Obj} (h : r.Perm r') {d : List ℝ}
    (hd : Interaction.nearest f (e ++ r) (frontMask e.length r.length) = some d) :
    Interaction.nearest f (e ++ r') (frontMask e.length r'.length) = some d := by
  unfold Interaction.nearest frontMask at hd ⊢
  rw [whereTrue_front, whereTrue_back, gather_front, gather_back] at hd
  rw [whereTrue_front, whereTrue_back, gather_front, gather_back]
  simp only [Option.bind_eq_bind, Option.bind_some] at hd ⊢
  apply forall₂_mapM
  refine forall₂_imp_mem (mapM_forall₂ hd) ?_
  intro a ha b _ hab
  have hlt : a.2 < e.length := by
    have := List.snd_lt_of_mem_zipIdx ha
    simpa using this
  rw [Option.bind_eq_some_iff] at hab ⊢
  obtain ⟨ds, h1, h2⟩ := hab
  rw [List.zipIdx_append, mapM_append_iff] at h1
  obtain ⟨x, y, h3, h4, rfl⟩ := h1
  rw [maskedDistance_later (by omega)] at h4
  obtain ⟨y', h5, h6⟩ := mapM_perm h h4
  refine ⟨x ++ y', ?_, ?_⟩
  · rw [List.zipIdx_append, mapM_append_iff]
    exact ⟨x, y', h3, by rw [maskedDistance_later (by omega)]; exact h5, rfl⟩
  · rw [← least_perm (h6.append_left x)]
    exact h2

/-- Two arrangements with the same evaluated objects. -/
theorem arranged_unique {pairs eval eval' rest rest' : List (Sim ℝ × Track ℝ)} {ids : List ℤ} (hn : (pairs.map fun p => p.1.id).Nodup)
    (h : Arranged pairs eval rest ids) (h' : Arranged pairs eval' rest' ids) : eval = eval' ∧ rest.Perm rest' := by
  have he : eval = eval' := by
    have hm : ∀ p ∈ eval, p ∈ pairs := fun p hp => h.perm.mem_iff.1 (List.mem_append_left _ hp)
    have hm' : ∀ p ∈ eval', p ∈ pairs := fun p hp => h'.perm.mem_iff.1 (List.mem_append_left _ hp)
    have hids : (eval.map fun p => p.1.id) = eval'.map fun p => p.1.id := h.ids.trans h'.ids.symm
    clear h h'
    induction eval generalizing eval' with
    | nil =>
      cases eval' with
      | nil => rfl
      | cons p l => simp at hids
    | cons p l ih =>
      cases eval' with
      | nil => simp at hids
      | cons p' l' =>
        simp only [List.map_cons, List.cons.injEq] at hids
        have hp := List.inj_on_of_nodup_map hn (hm p (by simp)) (hm' p' (by simp)) hids.1
        rw [hp, ih (fun q hq => hm q (by simp [hq])) (fun q hq => hm' q (by simp [hq])) hids.2]
  subst he
  exact ⟨rfl, (List.perm_append_left_iff eval).1 (h.perm.trans h'.perm.symm)⟩

theorem entities_at {s : Scenario ℝ} {ch : Challenge} {pairs l : List (Sim ℝ × Track ℝ)} (h : Posed s ch pairs) (hl : ∀ p ∈ l, p ∈ pairs) (lv : Bool)
    {k : ℕ} (hk : k < 91) : ∃ os, (l.map (entity ch lv)).mapM (objAt k) = some os :=
  mapM_isSome fun o ho => by
    obtain ⟨p, hp, rfl⟩ := List.mem_map.1 ho
    obtain ⟨h1, h2⟩ := entity_len h (hl p hp) lv
    exact objAt_some h1 h2 hk

theorem cars_at {s : Scenario ℝ} {ch : Challenge} {pairs l : List (Sim ℝ × Track ℝ)} (h : Posed s ch pairs) (hl : ∀ p ∈ l, p ∈ pairs) (lv : Bool)
    {k : ℕ} (hk : k < 91) : ∃ os, ((l.map (entity ch lv)).map traj).mapM (carAt duration k) = some os :=
  mapM_isSome fun o ho => by
    obtain ⟨o', ho', rfl⟩ := List.mem_map.1 ho
    obtain ⟨p, hp, rfl⟩ := List.mem_map.1 ho'
    obtain ⟨h1, h2⟩ := entity_len h (hl p hp) lv
    exact carAt_some (by norm_num) h1 h2 hk

theorem nearestAll_perm {s : Scenario ℝ} {ch : Challenge} {pairs eval rest rest' : List (Sim ℝ × Track ℝ)} (h : Posed s ch pairs)
    (hl : ∀ p ∈ eval ++ rest, p ∈ pairs) (hr : rest.Perm rest') (lv : Bool) {d : List (List ℝ)}
    (hd : nearestAll 91 ((eval ++ rest).map (entity ch lv)) (frontMask eval.length rest.length) = some d) :
    nearestAll 91 ((eval ++ rest').map (entity ch lv)) (frontMask eval.length rest'.length) = some d := by
  unfold nearestAll at hd ⊢
  apply forall₂_mapM
  refine forall₂_imp_mem (mapM_forall₂ hd) ?_
  intro k hk b _ hb
  rw [Option.bind_eq_bind, Option.bind_eq_some_iff] at hb ⊢
  obtain ⟨os, h1, h2⟩ := hb
  rw [List.map_append, mapM_append_iff] at h1
  obtain ⟨eo, ro, h3, h4, rfl⟩ := h1
  obtain ⟨ro', h5, h6⟩ := mapM_perm (hr.map (entity ch lv)) h4
  refine ⟨eo ++ ro', by rw [List.map_append, mapM_append_iff]; exact ⟨eo, ro', h3, h5, rfl⟩, ?_⟩
  have e1 : eval.length = eo.length := by rw [← (mapM_forall₂ h3).length_eq, List.length_map]
  have e2 : rest.length = ro.length := by rw [← (mapM_forall₂ h4).length_eq, List.length_map]
  have e3 : rest'.length = ro'.length := by rw [← (mapM_forall₂ h5).length_eq, List.length_map]
  rw [e1, e2] at h2
  rw [e1, e3]
  exact nearest_perm h6 h2

theorem timeAll_some {s : Scenario ℝ} {ch : Challenge} {pairs eval rest : List (Sim ℝ × Track ℝ)} (h : Posed s ch pairs)
    (hl : ∀ p ∈ eval ++ rest, p ∈ pairs) (lv : Bool) :
    ∃ d, timeAll 91 ((eval ++ rest).map (entity ch lv)) (frontMask eval.length rest.length) = some d := by
  apply mapM_isSome
  intro k hk
  rw [List.mem_range] at hk
  obtain ⟨cars, hc⟩ := cars_at h hl lv hk
  have hcl : cars.length = (eval ++ rest).length := by rw [← (mapM_forall₂ hc).length_eq, List.length_map, List.length_map]
  unfold Interaction.timeToCollision
  rw [hc]
  simp only [Option.bind_eq_bind, Option.bind_some]
  have : ∃ egos, Interaction.gather cars (whereTrue (frontMask eval.length rest.length)) = some egos := mapM_isSome fun i hi => by
    unfold frontMask at hi
    rw [whereTrue_front, List.mem_range] at hi
    exact ⟨cars[i]'(by rw [hcl, List.length_append]; omega), List.getElem?_eq_getElem _⟩
  obtain ⟨egos, he⟩ := this
  rw [he]
  simp only [Option.bind_some]
  apply mapM_isSome
  intro ego hego
  have hne : cars ≠ [] := by
    rintro rfl
    obtain ⟨j, hj⟩ := List.mem_iff_getElem?.1 hego
    obtain ⟨i, _, hi⟩ := mapM_get' he hj
    simp at hi
  obtain ⟨o, ho⟩ := Road.exists_isFirst hne (maskedLong ego)
  exact ⟨_, Interaction.ttcStep_eq ho⟩

theorem lightFor_order {order order' : List ℤ → List ℤ} (ho : Listing order) (ho' : Listing order') (m : MapData) (objs : List (Sim ℝ)) :
    lightFor order m objs = lightFor order' m objs := by
  have : lightOf order m = lightOf order' m := by
    funext r
    exact Road.redLight_order ho.mem ho'.mem _ _ _ _ _
  unfold lightFor
  rw [this]

/-- No two objects that are ranked nearest in front of an evaluated one have different speeds. -/
def Untied (ch : Challenge) (lv : Bool) (pairs : List (Sim ℝ × Track ℝ)) (ids : List ℤ) : Prop :=
  ∀ k < 91, ∀ p ∈ pairs, p.1.id ∈ ids → ∀ q ∈ pairs, ∀ q' ∈ pairs, ∀ c o o',
    carAt (1 / 10) k (course (entity ch lv p)) = some c → carAt (1 / 10) k (course (entity ch lv q)) = some o →
    carAt (1 / 10) k (course (entity ch lv q')) = some o' → maskedLong c o = maskedLong c o' →
    (∀ q'' ∈ pairs, ∀ o'', carAt (1 / 10) k (course (entity ch lv q'')) = some o'' → maskedLong c o ≤ maskedLong c o'') → o.speed = o'.speed

/-- C159: the order in which the ids of the objects that are not evaluated are listed decides neither whether there are features nor any feature
but the times to collision; and these neither, if no two objects that are nearest in front of an evaluated one have different speeds. -/
theorem compute_order_partial {order order' : List ℤ → List ℤ} (ho : Listing order) (ho' : Listing order') {s : Scenario ℝ} {m : MapData}
    {ch : Challenge} {pairs : List (Sim ℝ × Track ℝ)} (h : Posed s ch pairs) {ids : List ℤ} (he : evaluationIds s ch = some ids) (hne : ids ≠ [])
    (hin : ∀ i ∈ ids, ∃ p ∈ pairs, p.1.id = i) {lv : Bool} {F : Features} (hF : compute order s m (pairs.map Prod.fst) ch lv = some F) :
    ∃ F', compute order' s m (pairs.map Prod.fst) ch lv = some F' ∧ F' = { F with time := F'.time } ∧
      (Untied ch lv pairs ids → F' = F) := by
  obtain ⟨eval, rest, harr, _, hc⟩ := compute_eq ho (m := m) h he hne hin lv
  obtain ⟨eval', rest', harr', _, hc'⟩ := compute_eq ho' (m := m) h he hne hin lv
  obtain ⟨rfl, hperm⟩ := arranged_unique h.ids harr harr'
  have hl : ∀ p ∈ eval ++ rest, p ∈ pairs := fun p hp => harr.perm.mem_iff.1 hp
  have hl' : ∀ p ∈ eval ++ rest', p ∈ pairs := fun p hp => harr'.perm.mem_iff.1 hp
  rw [hc] at hF
  unfold arranged at hF
  simp only [Option.bind_eq_bind, Option.bind_eq_some_iff, Option.pure_def, Option.some.injEq] at hF
  obtain ⟨near, hnear, time, htime, edge, hedge, light, hlight, rfl⟩ := hF
  have hnear' := nearestAll_perm h hl hperm lv hnear
  obtain ⟨time', htime'⟩ := timeAll_some h hl' lv
  rw [lightFor_order ho ho'] at hlight
  rw [hc']
  unfold arranged
  simp only [hnear', htime', hedge, hlight, Option.bind_eq_bind, Option.bind_some, Option.pure_def]
  refine ⟨_, rfl, rfl, ?_⟩
  intro hun
  have : time' = time := by
    have hf := mapM_forall₂ htime
    have hf' := mapM_forall₂ htime'
    have key : ∀ k ∈ List.range 91, ∀ r, Interaction.timeToCollision (((eval ++ rest).map (entity ch lv)).map traj)
        (frontMask eval.length rest.length) duration k = some r →
        Interaction.timeToCollision (((eval ++ rest').map (entity ch lv)).map traj) (frontMask eval.length rest'.length) duration k = some r := by
      intro k hk r hr
      rw [List.mem_range] at hk
      unfold Interaction.timeToCollision frontMask at hr ⊢
      rw [whereTrue_front] at hr ⊢
      rw [Option.bind_eq_bind, Option.bind_eq_some_iff] at hr ⊢
      obtain ⟨cars, h1, h2⟩ := hr
      rw [List.map_append, List.map_append, mapM_append_iff] at h1
      obtain ⟨ec, rc, h3, h4, rfl⟩ := h1
      obtain ⟨rc', h5, h6⟩ := mapM_perm ((hperm.map (entity ch lv)).map traj) h4
      refine ⟨ec ++ rc', by rw [List.map_append, List.map_append, mapM_append_iff]; exact ⟨ec, rc', h3, h5, rfl⟩, ?_⟩
      have e1 : eval.length = ec.length := by rw [← (mapM_forall₂ h3).length_eq, List.length_map, List.length_map]
      rw [e1, gather_front] at h2 ⊢
      simp only [Option.bind_eq_bind, Option.bind_some] at h2 ⊢
      rw [← h2]
      apply mapM_congr_mem
      intro ego hego
      have hne1 : ec ++ rc ≠ [] := by
        intro e
        rw [List.append_eq_nil_iff] at e
        rw [e.1] at hego
        simp at hego
      have hne2 : ec ++ rc' ≠ [] := by
        intro e
        rw [List.append_eq_nil_iff] at e
        rw [e.1] at hego
        simp at hego
      have hall : ∀ o, o ∈ ec ++ rc ↔ ∃ q ∈ pairs, carAt (1 / 10) k (course (entity ch lv q)) = some o := by
        intro o
        have hcars : (((eval ++ rest).map (entity ch lv)).map traj).mapM (carAt duration k) = some (ec ++ rc) := by
          rw [List.map_append, List.map_append, mapM_append_iff]; exact ⟨ec, rc, h3, h4, rfl⟩
        constructor
        · intro hb
          obtain ⟨j, hj⟩ := List.mem_iff_getElem?.1 hb
          obtain ⟨q, hq1, hq2⟩ := mapM_get' hcars hj
          rw [List.map_map] at hq1
          obtain ⟨q', hq3, rfl⟩ := List.mem_map.1 (List.mem_of_getElem? hq1)
          exact ⟨q', hl q' hq3, hq2⟩
        · rintro ⟨q, hq1, hq2⟩
          have : traj (entity ch lv q) ∈ ((eval ++ rest).map (entity ch lv)).map traj :=
            List.mem_map.2 ⟨_, List.mem_map.2 ⟨q, harr.perm.mem_iff.2 hq1, rfl⟩, rfl⟩
          obtain ⟨j, hj⟩ := List.mem_iff_getElem?.1 this
          obtain ⟨b', hb1, hb2⟩ := mapM_get hcars hj
          have hq2' : carAt duration k (traj (entity ch lv q)) = some o := hq2
          rw [hq2', Option.some.injEq] at hb2
          exact hb2 ▸ List.mem_of_getElem? hb1
      have hsame : ∀ o, o ∈ ec ++ rc' ↔ o ∈ ec ++ rc := fun o => (h6.append_left ec).symm.mem_iff
      obtain ⟨o, hof⟩ := Road.exists_isFirst hne1 (maskedLong ego)
      obtain ⟨o', hof'⟩ := Road.exists_isFirst hne2 (maskedLong ego)
      rw [Interaction.ttcStep_eq hof, Interaction.ttcStep_eq hof']
      have heq : maskedLong ego o = maskedLong ego o' :=
        le_antisymm (hof.le ((hsame o').1 hof'.mem)) (hof'.le ((hsame o).2 hof.mem))
      have hego' : ∃ p ∈ pairs, p.1.id ∈ ids ∧ carAt (1 / 10) k (course (entity ch lv p)) = some ego := by
        obtain ⟨j, hj⟩ := List.mem_iff_getElem?.1 hego
        obtain ⟨q, hq1, hq2⟩ := mapM_get' h3 hj
        rw [List.map_map] at hq1
        obtain ⟨q', hq3, rfl⟩ := List.mem_map.1 (List.mem_of_getElem? hq1)
        exact ⟨q', hl q' (List.mem_append_left _ hq3), by rw [← harr.ids]; exact List.mem_map.2 ⟨q', hq3, rfl⟩, hq2⟩
      obtain ⟨p, hp1, hp2, hp3⟩ := hego'
      obtain ⟨q, hq1, hq2⟩ := (hall o).1 hof.mem
      obtain ⟨q', hq1', hq2'⟩ := (hall o').1 ((hsame o').1 hof'.mem)
      have hspeed := hun k hk p hp1 hp2 q hq1 q' hq1' ego o o' hp3 hq2 hq2' heq fun q'' hq'' o'' ho'' => hof.le ((hall o'').2 ⟨q'', hq'', ho''⟩)
      rw [heq, hspeed]
    have h2 : List.Forall₂ (fun k r => Interaction.timeToCollision (((eval ++ rest').map (entity ch lv)).map traj)
        (frontMask eval.length rest'.length) duration k = some r) (List.range 91) time :=
      forall₂_imp_mem hf fun k hk r _ hr => key k hk r hr
    have h3 := forall₂_mapM h2
    unfold timeAll at htime'
    rw [h3, Option.some.injEq] at htime'
    exact htime'.symm
  rw [this]

end

end Verif.SimFeatures
