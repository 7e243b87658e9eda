import Verif.Model.Wireframe
import Mathlib.Tactic.Linarith
import Mathlib.Tactic.FieldSimp
import Mathlib.Tactic.Ring
import Mathlib.Tactic.NormNum
import Mathlib.Tactic.Push

/-!
C172: labels of an object.  C173: wireframes.  C174: cropping of an image with key points.
-/

namespace Verif.Wireframe

/-! ## Dictionaries -/

section
variable {α β : Type} [DecidableEq α]

/-- Specification: `v` is the value of the last pair of a list with the key `k`. -/
def LastValue (l : List (α × β)) (k : α) (v : β) : Prop := ∃ a b, l = a ++ (k, v) :: b ∧ ∀ p ∈ b, p.1 ≠ k

theorem get_cons (p : α × β) (d : List (α × β)) (k : α) : get (p :: d) k = if p.1 = k then some p.2 else get d k := by
  unfold get
  rw [List.find?_cons]
  by_cases h : p.1 = k <;> simp [h]

theorem get_none {d : List (α × β)} {k : α} : get d k = none ↔ ∀ p ∈ d, p.1 ≠ k := by
  induction d with
  | nil => simp [get]
  | cons p d ih =>
    rw [get_cons]
    by_cases h : p.1 = k
    · simp [h]
    · simp [h, ih]

theorem get_mem {d : List (α × β)} {k : α} {v : β} (h : get d k = some v) : (k, v) ∈ d := by
  induction d with
  | nil => simp [get] at h
  | cons p d ih =>
    rw [get_cons] at h
    by_cases hp : p.1 = k
    · rw [if_pos hp] at h
      cases h
      rw [← hp]; exact List.mem_cons_self
    · rw [if_neg hp] at h
      exact List.mem_cons_of_mem _ (ih h)

theorem get_of_mem {d : List (α × β)} (hn : (d.map Prod.fst).Nodup) {k : α} {v : β} (h : (k, v) ∈ d) : get d k = some v := by
  induction d with
  | nil => simp at h
  | cons p d ih =>
    rw [List.map_cons, List.nodup_cons] at hn
    rw [get_cons]
    rcases List.mem_cons.1 h with rfl | h
    · simp
    · have : ¬ p.1 = k := fun he => hn.1 (by rw [he]; exact List.mem_map.2 ⟨_, h, rfl⟩)
      rw [if_neg this]
      exact ih hn.2 h

theorem get_append (d e : List (α × β)) (k : α) : get (d ++ e) k = (get d k).or (get e k) := by
  induction d with
  | nil => simp [get]
  | cons p d ih =>
    rw [List.cons_append, get_cons, get_cons, ih]
    by_cases h : p.1 = k <;> simp [h]

theorem get_put (d : List (α × β)) (k j : α) (v : β) : get (put d k v) j = if j = k then some v else get d j := by
  unfold put
  split
  · rename_i hs
    induction d with
    | nil => simp [get] at hs
    | cons p d ih =>
      rw [List.map_cons, get_cons, get_cons]
      by_cases hp : p.1 = k
      · simp only [hp, if_true]
        by_cases hj : j = k
        · simp [hj]
        · have hj' : ¬ k = j := fun h => hj h.symm
          simp only [hj, hj', if_false]
          have hmap : ∀ e : List (α × β), get (e.map fun p => if p.1 = k then (k, v) else p) j = get e j := by
            intro e
            induction e with
            | nil => rfl
            | cons q e ihe =>
              rw [List.map_cons, get_cons, get_cons, ihe]
              by_cases hq : q.1 = k
              · simp [hq, hj']
              · simp [hq]
          exact hmap d
      · rw [if_neg hp]
        have : (get d k).isSome := by rwa [get_cons, if_neg hp] at hs
        rw [ih this]
        by_cases hpj : p.1 = j
        · have : ¬ j = k := fun h => hp (hpj.trans h)
          simp [hpj, this]
        · simp [hpj]
  · rename_i hs
    rw [get_append, get_cons]
    have hn : get d k = none := by
      cases h : get d k with
      | none => rfl
      | some x => simp [h] at hs
    by_cases hj : j = k
    · subst hj; simp [hn]
    · have hj' : ¬ k = j := fun h => hj h.symm
      rw [if_neg hj', if_neg hj]
      cases h : get d j <;> simp [get]

theorem keys_put (d : List (α × β)) (k : α) (v : β) :
    (put d k v).map Prod.fst = if (get d k).isSome then d.map Prod.fst else d.map Prod.fst ++ [k] := by
  unfold put
  split
  · rw [List.map_map]
    apply List.map_congr_left
    intro p _
    simp only [Function.comp]
    split
    · rename_i h; exact h.symm
    · rfl
  · simp

theorem put_nodup {d : List (α × β)} (h : (d.map Prod.fst).Nodup) (k : α) (v : β) : ((put d k v).map Prod.fst).Nodup := by
  rw [keys_put]
  split
  · exact h
  · rename_i hs
    rw [List.nodup_append]
    refine ⟨h, List.nodup_singleton k, ?_⟩
    intro a ha b hb
    rw [List.mem_singleton] at hb
    subst hb
    rintro rfl
    obtain ⟨p, hp, rfl⟩ := List.mem_map.1 ha
    have : get d p.1 = none := by
      cases h : get d p.1 with
      | none => rfl
      | some x => simp [h] at hs
    exact get_none.1 this p hp rfl

theorem dict_concat (l : List (α × β)) (p : α × β) : dict (l ++ [p]) = put (dict l) p.1 p.2 := by
  unfold dict; rw [List.foldl_append]; rfl

/-- A dictionary has the last value of every key, and every key once. -/
theorem dict_spec (l : List (α × β)) :
    ((dict l).map Prod.fst).Nodup ∧ (∀ k v, get (dict l) k = some v ↔ LastValue l k v) ∧
      ∀ k, k ∈ (dict l).map Prod.fst ↔ k ∈ l.map Prod.fst := by
  induction l using List.reverseRecOn with
  | nil => refine ⟨by simp [dict], ?_, by simp [dict]⟩; intro k v; simp [dict, get, LastValue]
  | append_singleton l p ih =>
    obtain ⟨i1, i2, i3⟩ := ih
    rw [dict_concat]
    refine ⟨put_nodup i1 _ _, ?_, ?_⟩
    · intro k v
      rw [get_put]
      by_cases hk : k = p.1
      · rw [if_pos hk]
        constructor
        · intro h
          cases h
          exact ⟨l, [], by rw [hk], by simp⟩
        · rintro ⟨a, b, hab, hb⟩
          rcases List.eq_nil_or_concat b with rfl | ⟨b', q, rfl⟩
          · have := List.append_inj_right' hab rfl
            simp at this
            rw [this]
          · rw [List.concat_eq_append, ← List.cons_append, ← List.append_assoc] at hab
            have h2 := (List.append_inj' hab rfl).2
            simp at h2
            exact absurd (by rw [← h2]; exact hk.symm) (hb q (by simp))
      · rw [if_neg hk, i2]
        constructor
        · rintro ⟨a, b, rfl, hb⟩
          refine ⟨a, b ++ [p], by simp, ?_⟩
          intro q hq
          rcases List.mem_append.1 hq with hq | hq
          · exact hb q hq
          · rw [List.mem_singleton] at hq; rw [hq]; exact fun h => hk h.symm
        · rintro ⟨a, b, hab, hb⟩
          rcases List.eq_nil_or_concat b with rfl | ⟨b', q, rfl⟩
          · have := List.append_inj_right' hab rfl
            simp at this
            exact absurd (by rw [this]) hk
          · rw [List.concat_eq_append, ← List.cons_append, ← List.append_assoc] at hab
            have := List.append_inj' hab rfl
            exact ⟨a, b', this.1, fun r hr => hb r (by simp [hr])⟩
    · intro k
      rw [keys_put]
      split
      · rename_i hs
        rw [i3, List.map_append, List.mem_append]
        constructor
        · exact Or.inl
        · rintro (h | h)
          · exact h
          · simp at h
            rw [h, ← i3]
            cases hg : get (dict l) p.1 with
            | none => simp [hg] at hs
            | some x => exact List.mem_map.2 ⟨(p.1, x), get_mem hg, rfl⟩
      · rw [List.mem_append, i3]; simp

end

/-! ## Labels -/

section
variable {B K L : Type}

/-- The camera labels of a frame with the names of their cameras, in order. -/
def flat (camera : List (ℕ × List (CameraLabel B L))) : List (ℕ × CameraLabel B L) :=
  camera.flatMap fun p => p.2.map fun l => (p.1, l)

/-- The camera labels that are associated with an object. -/
def associated (labels : List (ℕ × CameraLabel B L)) (id : Option String) : List (ℕ × CameraLabel B L) :=
  labels.filter fun l => decide (l.2.association = id)

theorem indexCamera_get (empty : L) (labels : List (ℕ × CameraLabel B L)) (id : Option String) :
    get (indexCamera empty labels) id = if associated labels id = [] then none
      else some (dict ((associated labels id).map fun l => (l.1, l.2.box, field empty l.2.keypoints))) := by
  induction labels using List.reverseRecOn with
  | nil => simp [indexCamera, associated, get]
  | append_singleton labels l ih =>
    have hstep : indexCamera empty (labels ++ [l]) = put (indexCamera empty labels) l.2.association
        (put ((get (indexCamera empty labels) l.2.association).getD []) l.1 (l.2.box, field empty l.2.keypoints)) := by
      unfold indexCamera; rw [List.foldl_append]; rfl
    rw [hstep, get_put]
    by_cases h : id = l.2.association
    · subst h
      have ha : associated (labels ++ [l]) l.2.association = associated labels l.2.association ++ [l] := by
        unfold associated; rw [List.filter_append]; simp
      rw [if_pos rfl, ha, if_neg (by simp), ih]
      congr 1
      rw [List.map_append, List.map_singleton, dict_concat]
      congr 1
      split
      · rename_i h0; rw [h0]; rfl
      · rfl
    · have ha : associated (labels ++ [l]) id = associated labels id := by
        unfold associated; rw [List.filter_append]
        have : ¬ l.2.association = id := fun he => h he.symm
        simp [this]
      rw [if_neg h, ha, ih]

/-- C172: every laser object occurs once, with type, box and key points of its last label, and has for each camera the last label
that is associated with it. -/
theorem group_spec_partial (noLaser : K) (noCamera : L) (laser : List (LaserLabel B K)) (camera : List (ℕ × List (CameraLabel B L))) :
    ((group noLaser noCamera laser camera).map Prod.fst).Nodup ∧
    (∀ id, id ∈ (group noLaser noCamera laser camera).map Prod.fst ↔ ∃ l ∈ laser, l.id = id) ∧
    ∀ id o, get (group noLaser noCamera laser camera) id = some o →
      (∃ a l b, laser = a ++ l :: b ∧ l.id = id ∧ (∀ m ∈ b, m.id ≠ id) ∧ o.type = l.type ∧ o.box = l.box ∧
        o.keypoints = some (l.keypoints.getD noLaser)) ∧
      (o.camera = none ↔ ∀ c ∈ flat camera, c.2.association ≠ some id) ∧
      ∀ d, o.camera = some d → (d.map Prod.fst).Nodup ∧ ∀ name box kp, get d name = some (box, kp) ↔
        ∃ a c b, flat camera = a ++ (name, c) :: b ∧ c.association = some id ∧
          (∀ e ∈ b, e.1 = name → e.2.association ≠ some id) ∧ box = c.box ∧ kp = some (c.keypoints.getD noCamera) := by
  have hkeys : (group noLaser noCamera laser camera).map Prod.fst = (indexLaser noLaser laser).map Prod.fst := by
    unfold group; rw [List.map_map]; rfl
  obtain ⟨d1, d2, d3⟩ := dict_spec (laser.map fun l => (l.id, l.type, l.box, field noLaser l.keypoints))
  refine ⟨by rw [hkeys]; exact d1, ?_, ?_⟩
  · intro id
    rw [hkeys]
    unfold indexLaser
    rw [d3]
    simp
  · intro id o h
    have hm := get_mem h
    unfold group at hm
    obtain ⟨p, hp, he⟩ := List.mem_map.1 hm
    obtain ⟨pid, ptype, pbox, pkp⟩ := p
    simp only [Prod.mk.injEq] at he
    obtain ⟨rfl, rfl⟩ := he
    have hg := get_of_mem d1 hp
    obtain ⟨a, b, hab, hb⟩ := (d2 _ _).1 hg
    have hl : ∃ a' l b', laser = a' ++ l :: b' ∧ (l.id, l.type, l.box, field noLaser l.keypoints) = (pid, ptype, pbox, pkp) ∧
        b'.map (fun l => (l.id, l.type, l.box, field noLaser l.keypoints)) = b := by
      rw [List.map_eq_append_iff] at hab
      obtain ⟨a', r, rfl, -, hr⟩ := hab
      rw [List.map_eq_cons_iff] at hr
      obtain ⟨l, b', rfl, h1, h2⟩ := hr
      exact ⟨a', l, b', rfl, h1, h2⟩
    obtain ⟨a', l, b', h1, h2, h3⟩ := hl
    simp only [Prod.mk.injEq] at h2
    obtain ⟨e1, e2, e3, e4⟩ := h2
    refine ⟨⟨a', l, b', h1, e1, ?_, e2.symm, e3.symm, e4.symm⟩, ?_, ?_⟩
    · intro m hm'
      exact hb _ (by rw [← h3]; exact List.mem_map_of_mem hm')
    · show get (indexCamera noCamera (flat camera)) (some pid) = none ↔ _
      rw [indexCamera_get]
      split
      · rename_i h0
        simp only [true_iff]
        intro c hc hcc
        have : c ∈ associated (flat camera) (some pid) := by simp [associated, hc, hcc]
        rw [h0] at this; simp at this
      · rename_i h0
        simp only [reduceCtorEq, false_iff]
        intro hall
        apply h0
        unfold associated
        rw [List.filter_eq_nil_iff]
        intro c hc
        simpa using hall c hc
    · intro d hd
      have hd' : get (indexCamera noCamera (flat camera)) (some pid) = some d := hd
      rw [indexCamera_get] at hd'
      split at hd'
      · simp at hd'
      · cases hd'
        obtain ⟨c1, c2, -⟩ := dict_spec ((associated (flat camera) (some pid)).map fun l => (l.1, l.2.box, field noCamera l.2.keypoints))
        refine ⟨c1, ?_⟩
        intro name box kp
        rw [c2]
        constructor
        · rintro ⟨x, y, hxy, hy⟩
          rw [List.map_eq_append_iff] at hxy
          obtain ⟨x', r, hx, -, hr⟩ := hxy
          rw [List.map_eq_cons_iff] at hr
          obtain ⟨c, y', rfl, q1, q2⟩ := hr
          unfold associated at hx
          rw [List.filter_eq_append_iff] at hx
          obtain ⟨u, w, huw, -, hw⟩ := hx
          rw [List.filter_eq_cons_iff] at hw
          obtain ⟨u2, w2, rfl, -, hc, hw2⟩ := hw
          simp only [Prod.mk.injEq] at q1
          obtain ⟨r1, r2, r3⟩ := q1
          refine ⟨u ++ u2, c.2, w2, by rw [huw, List.append_assoc, ← r1], by simpa using hc, ?_, r2.symm, r3.symm⟩
          intro e he hname hass
          have : e ∈ y' := by rw [← hw2]; simp [he, hass]
          exact hy _ (by rw [← q2]; exact List.mem_map_of_mem this) hname
        · rintro ⟨x, c, y, hxy, hc, hy, rfl, rfl⟩
          refine ⟨(associated x (some pid)).map fun l => (l.1, l.2.box, field noCamera l.2.keypoints),
            (associated y (some pid)).map fun l => (l.1, l.2.box, field noCamera l.2.keypoints), ?_, ?_⟩
          · rw [hxy]
            unfold associated
            rw [List.filter_append, List.filter_cons, if_pos (by simpa using hc), List.map_append, List.map_cons]
            rfl
          · intro p hp
            obtain ⟨e, he, rfl⟩ := List.mem_map.1 hp
            unfold associated at he
            rw [List.mem_filter] at he
            intro hname
            exact hy e he.1 hname (by simpa using he.2)

/-- C172 fails: an object without camera labels has no dictionary instead of an empty one, one without key points has an empty
message instead of none, and of two boxes of one camera only the last stays. -/
theorem group_violated (noLaser : K) (noCamera : L) (id : String) (type : ℤ) (b b1 b2 : B) (name : ℕ) :
    (group noLaser noCamera [⟨id, type, b, none⟩] []).map (fun p => (p.2.keypoints, p.2.camera.isSome)) = [(some noLaser, false)] ∧
    (group noLaser noCamera [⟨id, type, b, none⟩] [(name, [⟨some id, b1, none⟩, ⟨some id, b2, none⟩])]).map (fun p => p.2.camera) =
      [some [(name, b2, some noCamera)]] := by
  simp [group, indexLaser, indexCamera, dict, put, get, field]

end

/-! ## Wireframes -/

section
variable {n : ℕ}

/-- Specification: the point of a type is at a place. -/
def At (points : List (ℕ × Point n)) (t : ℕ) (x : Fin n → ℚ) : Prop := ∃ o, get points t = some (x, o)

/-- Specification: `x` is the average of the points of the types `ts`. -/
def Average (points : List (ℕ × Point n)) (ts : List ℕ) (x : Fin n → ℚ) : Prop :=
  ∃ ps : List (Fin n → ℚ), List.Forall₂ (At points) ts ps ∧ ∀ i, x i * ts.length = (ps.map fun p => p i).sum

/-- Specification: two lines of one width that join `x` and `y` and meet halfway, each in its color. -/
def Halves (x y : Fin n → ℚ) (cx cy : String) (w : ℚ) (ls : List (Line n)) : Prop :=
  ∃ a b, ls = [a, b] ∧ a.start = x ∧ b.stop = y ∧ a.stop = b.start ∧ (∀ i, a.stop i - x i = y i - a.stop i) ∧
    a.color = cx ∧ b.color = cy ∧ a.width = w ∧ b.width = w

/-- Specification: the colour of one end of an edge between averages: that of the type if it is one, else the default. -/
def EndColor (colors : List (ℕ × String)) (ts : List ℕ) (c : String) : Prop :=
  (∀ t, ts = [t] → get colors t = some c) ∧ (ts.length ≠ 1 → c = "#424242")

/-- All types that an edge joins. -/
def Edge.types : Edge → List ℕ
  | .solid a b _ => [a, b]
  | .bicolor a b _ => [a, b]
  | .multi as bs _ => as ++ bs

/-- Specification: the lines of an edge.  Without one of its points there are none. -/
def Drawn (points : List (ℕ × Point n)) (colors : List (ℕ × String)) (f : ℚ) (e : Edge) (ls : List (Line n)) : Prop :=
  ((∃ t ∈ e.types, get points t = none) → ls = []) ∧
  ((∀ t ∈ e.types, get points t ≠ none) → match e with
    | .solid a b w => ∃ x y, At points a x ∧ At points b y ∧ ls = [⟨x, y, (get colors a).getD "#424242", w * f⟩]
    | .bicolor a b w => ∃ x y, At points a x ∧ At points b y ∧
        Halves x y ((get colors a).getD "#424242") ((get colors b).getD "#424242") (w * f) ls
    | .multi as bs w => ∃ x y cx cy, Average points as x ∧ Average points bs y ∧ EndColor colors as cx ∧ EndColor colors bs cy ∧
        Halves x y cx cy (w * f) ls)

/-- Specification: the dot of a point. -/
def IsDot (c : Config) (p : ℕ × Point n) (d : Dot n) : Prop :=
  d.location = p.2.1 ∧ get c.colors p.1 = some d.color ∧ (∃ s, get c.sizes p.1 = some s ∧ d.size = s * c.dotFactor) ∧
  (∃ name, get names p.1 = some name ∧ (p.2.2 = true → d.name = name ++ "?") ∧ (p.2.2 = false → d.name = name)) ∧
  (p.2.2 = true → d.actualBorder = "#000000") ∧ (p.2.2 = false → d.actualBorder = d.color)

theorem bicolor_halves (x y : Fin n → ℚ) (cx cy : String) (w : ℚ) : Halves x y cx cy w (bicolorLines x cx y cy w) := by
  refine ⟨_, _, rfl, rfl, rfl, rfl, ?_, rfl, rfl, rfl, rfl⟩
  intro i
  show (x i + y i) / 2 - x i = y i - (x i + y i) / 2
  ring

/-- The two halves are the whole edge: every point between the ends is on one of them. -/
theorem halves_cover {x y : Fin n → ℚ} {cx cy : String} {w : ℚ} {ls : List (Line n)} (h : Halves x y cx cy w ls) {t : ℚ}
    (h0 : 0 ≤ t) (h1 : t ≤ 1) : ∃ l ∈ ls, ∃ s : ℚ, 0 ≤ s ∧ s ≤ 1 ∧
      ∀ i, l.start i + s * (l.stop i - l.start i) = x i + t * (y i - x i) := by
  obtain ⟨a, b, rfl, h1', h2, h3, h4, -⟩ := h
  have hm : ∀ i, a.stop i = (x i + y i) / 2 := fun i => by linarith [h4 i]
  by_cases ht : t ≤ 1 / 2
  · refine ⟨a, by simp, 2 * t, by linarith, by linarith, ?_⟩
    intro i; rw [h1', hm i]; ring
  · refine ⟨b, by simp, 2 * t - 1, by linarith, by linarith, ?_⟩
    intro i; rw [h2, ← h3, hm i]; ring

theorem mapM_forall₂ {α β : Type} {f : α → Option β} : ∀ {l : List α} {r : List β},
    l.mapM f = some r ↔ List.Forall₂ (fun a b => f a = some b) l r := by
  intro l
  induction l with
  | nil => intro r; simp [eq_comm]
  | cons a l ih =>
    intro r
    rw [List.mapM_cons]
    simp only [Option.bind_eq_bind, Option.bind_eq_some_iff, Option.pure_def, Option.some.injEq]
    constructor
    · rintro ⟨b, hb, r', hr', rfl⟩
      exact .cons hb (ih.1 hr')
    · intro h
      cases h with
      | cons h1 h2 => exact ⟨_, h1, _, ih.2 h2, rfl⟩

theorem mapM_exists {α β : Type} {f : α → Option β} {l : List α} (h : ∀ a ∈ l, (f a).isSome) : ∃ r, l.mapM f = some r := by
  induction l with
  | nil => exact ⟨[], rfl⟩
  | cons a l ih =>
    obtain ⟨b, hb⟩ := Option.isSome_iff_exists.1 (h a (by simp))
    obtain ⟨r, hr⟩ := ih fun x hx => h x (by simp [hx])
    exact ⟨b :: r, by rw [List.mapM_cons, hb, hr]; rfl⟩

theorem mapM_all {α β : Type} {f : α → Option β} {l : List α} {r : List β} (h : l.mapM f = some r) : ∀ a ∈ l, (f a).isSome := by
  have := mapM_forall₂.1 h
  clear h
  induction this with
  | nil => simp
  | cons h1 _ ih =>
    intro a ha
    rcases List.mem_cons.1 ha with rfl | ha
    · rw [h1]; rfl
    · exact ih a ha

theorem averaged_some {points : List (ℕ × Point n)} {colors : List (ℕ × String)} {ts : List ℕ} {r : (Fin n → ℚ) × String}
    (h : averaged points colors ts = some r) : Average points ts r.1 ∧ EndColor colors ts r.2 := by
  unfold averaged at h
  simp only [Option.bind_eq_bind, Option.bind_eq_some_iff, Option.pure_def, Option.some.injEq] at h
  obtain ⟨ps, hps, m, hm, cs, hcs, rfl⟩ := h
  have hps := mapM_forall₂.1 hps
  have hcs := mapM_forall₂.1 hcs
  unfold mean at hm
  split at hm
  · simp at hm
  · rename_i hne
    cases hm
    refine ⟨⟨ps.map Prod.fst, ?_, ?_⟩, ?_, ?_⟩
    · rw [List.forall₂_map_right_iff]
      exact hps.imp fun t p h => ⟨p.2, h⟩
    · intro i
      have hl : ts.length = (ps.map Prod.fst).length := by rw [List.length_map]; exact hps.length_eq
      have h0 : ((ps.map Prod.fst).length : ℚ) ≠ 0 := by
        rw [Ne, Nat.cast_eq_zero, List.length_eq_zero_iff]; exact hne
      rw [hl]
      exact div_mul_cancel₀ _ h0
    · intro t ht
      subst ht
      cases hcs with
      | cons h1 h2 => cases h2; exact h1
    · intro hl
      rw [hcs.length_eq] at hl
      show combineColors cs = _
      unfold combineColors
      split
      · simp at hl
      · rfl

theorem averaged_exists {points : List (ℕ × Point n)} {colors : List (ℕ × String)} {ts : List ℕ} (h0 : ts ≠ [])
    (h1 : ∀ t ∈ ts, (get points t).isSome) (h2 : ∀ t ∈ ts, (get colors t).isSome) : (averaged points colors ts).isSome := by
  obtain ⟨ps, hps⟩ := mapM_exists h1
  obtain ⟨cs, hcs⟩ := mapM_exists h2
  have hl := (mapM_forall₂.1 hps).length_eq
  have hne : ps.map Prod.fst ≠ [] := by
    intro h
    apply h0
    rw [← List.length_eq_zero_iff, hl, ← List.length_map (f := Prod.fst), h]; rfl
  have hne' : ps ≠ [] := fun h => hne (by rw [h]; rfl)
  unfold averaged
  simp [hps, hcs, mean, hne']

theorem createLines_drawn {points : List (ℕ × Point n)} {colors : List (ℕ × String)} {f : ℚ} {e : Edge} {ls : List (Line n)}
    (h : createLines points colors (e.scale f) = some ls) : Drawn points colors f e ls := by
  cases e with
  | solid a b w =>
    unfold Edge.scale createLines at h
    cases ha : get points a with
    | none =>
      simp [ha] at h
      exact ⟨fun _ => h.symm ▸ rfl, fun hall => absurd ha (hall a (by simp [Edge.types]))⟩
    | some p =>
      cases hb : get points b with
      | none =>
        simp [ha, hb] at h
        exact ⟨fun _ => h.symm ▸ rfl, fun hall => absurd hb (hall b (by simp [Edge.types]))⟩
      | some q =>
        simp [ha, hb] at h
        refine ⟨?_, fun _ => ⟨p.1, q.1, ⟨p.2, ha⟩, ⟨q.2, hb⟩, h.symm⟩⟩
        rintro ⟨t, ht, hn⟩
        simp [Edge.types] at ht
        rcases ht with rfl | rfl
        · rw [ha] at hn; simp at hn
        · rw [hb] at hn; simp at hn
  | bicolor a b w =>
    unfold Edge.scale createLines at h
    cases ha : get points a with
    | none =>
      simp [ha] at h
      exact ⟨fun _ => h.symm ▸ rfl, fun hall => absurd ha (hall a (by simp [Edge.types]))⟩
    | some p =>
      cases hb : get points b with
      | none =>
        simp [ha, hb] at h
        exact ⟨fun _ => h.symm ▸ rfl, fun hall => absurd hb (hall b (by simp [Edge.types]))⟩
      | some q =>
        simp [ha, hb] at h
        refine ⟨?_, fun _ => ⟨p.1, q.1, ⟨p.2, ha⟩, ⟨q.2, hb⟩, h ▸ bicolor_halves _ _ _ _ _⟩⟩
        rintro ⟨t, ht, hn⟩
        simp [Edge.types] at ht
        rcases ht with rfl | rfl
        · rw [ha] at hn; simp at hn
        · rw [hb] at hn; simp at hn
  | multi as bs w =>
    unfold Edge.scale createLines at h
    simp only at h
    split at h
    · rename_i hall
      simp only [Option.bind_eq_bind, Option.bind_eq_some_iff, Option.pure_def, Option.some.injEq] at h
      obtain ⟨p, hp, q, hq, rfl⟩ := h
      obtain ⟨p1, p2⟩ := averaged_some hp
      obtain ⟨q1, q2⟩ := averaged_some hq
      refine ⟨?_, fun _ => ⟨p.1, q.1, p.2, q.2, p1, q1, p2, q2, bicolor_halves _ _ _ _ _⟩⟩
      rintro ⟨t, ht, hn⟩
      rcases List.mem_append.1 ht with ht | ht
      · have := hall.1 t ht; rw [hn] at this; simp at this
      · have := hall.2 t ht; rw [hn] at this; simp at this
    · rename_i hall
      cases h
      refine ⟨fun _ => rfl, fun hp => absurd ⟨?_, ?_⟩ hall⟩
      · intro t ht; exact Option.isSome_iff_ne_none.2 (hp t (List.mem_append_left _ ht))
      · intro t ht; exact Option.isSome_iff_ne_none.2 (hp t (List.mem_append_right _ ht))

theorem dot_spec {c : Config} {p : ℕ × Point n} {d : Dot n} (h : dot c p = some d) : IsDot c p d := by
  unfold dot at h
  simp only [Option.bind_eq_bind, Option.bind_eq_some_iff, Option.pure_def, Option.some.injEq] at h
  obtain ⟨color, hc, size, hs, name, hn, rfl⟩ := h
  refine ⟨rfl, hc, ⟨size, hs, rfl⟩, ⟨name, hn, ?_, ?_⟩, ?_, ?_⟩
  · intro h; simp [h]
  · intro h; simp [h]
  · intro h; simp [h, Dot.actualBorder, occludedColor]
  · intro h; simp [h, Dot.actualBorder]

/-- C173: a wireframe has a dot for the last key point of every type and the lines of every edge, in the order of the edges. -/
theorem wireframe_spec {keypoints : List (ℕ × Point n)} {c : Config} {lines : List (Line n)} {dots : List (Dot n)}
    (h : wireframe keypoints c = some (lines, dots)) :
    ∃ points : List (ℕ × Point n), (points.map Prod.fst).Nodup ∧ (∀ t p, (t, p) ∈ points ↔ LastValue keypoints t p) ∧
      List.Forall₂ (IsDot c) points dots ∧
      ∃ parts, List.Forall₂ (Drawn points c.colors c.lineFactor) c.edges parts ∧ lines = parts.flatten := by
  unfold wireframe build at h
  simp only [Option.bind_eq_bind, Option.bind_eq_some_iff, Option.pure_def, Option.some.injEq, Prod.mk.injEq] at h
  obtain ⟨parts, hp, ds, hd, rfl, rfl⟩ := h
  obtain ⟨d1, d2, -⟩ := dict_spec keypoints
  refine ⟨dict keypoints, d1, ?_, (mapM_forall₂.1 hd).imp fun _ _ => dot_spec, parts,
    (mapM_forall₂.1 hp).imp fun _ _ => createLines_drawn, rfl⟩
  intro t p
  rw [← d2]
  exact ⟨get_of_mem d1, get_mem⟩

/-- C173: there is a wireframe if and only if all types that occur have a color, a size and a name, provided that no edge averages
nothing. -/
theorem wireframe_iff {keypoints : List (ℕ × Point n)} {c : Config}
    (he : ∀ e ∈ c.edges, ∀ as bs w, e = .multi as bs w → as ≠ [] ∧ bs ≠ []) :
    (wireframe keypoints c).isSome ↔ ∀ p ∈ keypoints, (get c.colors p.1).isSome ∧ (get c.sizes p.1).isSome ∧ (get names p.1).isSome := by
  obtain ⟨d1, d2, d3⟩ := dict_spec keypoints
  have hdot : ∀ p : ℕ × Point n, (dot c p).isSome ↔ (get c.colors p.1).isSome ∧ (get c.sizes p.1).isSome ∧ (get names p.1).isSome := by
    intro p
    unfold dot
    cases get c.colors p.1 <;> cases get c.sizes p.1 <;> cases get names p.1 <;> simp
  constructor
  · intro h p hp
    obtain ⟨w, hw⟩ := Option.isSome_iff_exists.1 h
    unfold wireframe build at hw
    simp only [Option.bind_eq_bind, Option.bind_eq_some_iff, Option.pure_def, Option.some.injEq] at hw
    obtain ⟨parts, -, ds, hd, -⟩ := hw
    have : p.1 ∈ (dict keypoints).map Prod.fst := (d3 p.1).2 (List.mem_map_of_mem hp)
    obtain ⟨q, hq, hqp⟩ := List.mem_map.1 this
    have := (hdot q).1 (mapM_all hd q hq)
    rwa [hqp] at this
  · intro h
    have hall : ∀ t, (get (dict keypoints) t).isSome → (get c.colors t).isSome ∧ (get c.sizes t).isSome ∧ (get names t).isSome := by
      intro t ht
      obtain ⟨v, hv⟩ := Option.isSome_iff_exists.1 ht
      have : t ∈ keypoints.map Prod.fst := (d3 t).1 (List.mem_map.2 ⟨_, get_mem hv, rfl⟩)
      obtain ⟨q, hq, rfl⟩ := List.mem_map.1 this
      exact h q hq
    have hd : ∃ ds, (dict keypoints).mapM (dot c) = some ds := by
      apply mapM_exists
      intro p hp
      rw [hdot]
      exact hall p.1 (by rw [get_of_mem d1 (k := p.1) (v := p.2) hp]; rfl)
    have hl : ∃ parts, (c.edges.mapM fun e => createLines (dict keypoints) c.colors (e.scale c.lineFactor)) = some parts := by
      apply mapM_exists
      intro e hmem
      cases e with
      | solid a b w =>
        show (createLines (dict keypoints) c.colors (.solid a b (w * c.lineFactor))).isSome
        unfold createLines
        cases h1 : get (dict keypoints) a <;> cases h2 : get (dict keypoints) b <;> simp [h1, h2]
      | bicolor a b w =>
        show (createLines (dict keypoints) c.colors (.bicolor a b (w * c.lineFactor))).isSome
        unfold createLines
        cases h1 : get (dict keypoints) a <;> cases h2 : get (dict keypoints) b <;> simp [h1, h2]
      | multi as bs w =>
        obtain ⟨ha, hb⟩ := he _ hmem as bs w rfl
        unfold Edge.scale createLines
        simp only
        split
        · rename_i hs
          obtain ⟨x, hx⟩ := Option.isSome_iff_exists.1 (averaged_exists ha hs.1 fun t ht => (hall t (hs.1 t ht)).1)
          obtain ⟨y, hy⟩ := Option.isSome_iff_exists.1 (averaged_exists hb hs.2 fun t ht => (hall t (hs.2 t ht)).1)
          simp [hx, hy]
        · rfl
    obtain ⟨ds, hd⟩ := hd
    obtain ⟨parts, hl⟩ := hl
    unfold wireframe build
    rw [hl, hd]; rfl

/-- C173: with the default settings every collection of key points has a wireframe, if no type is unspecified. -/
theorem default_partial {keypoints : List (ℕ × Point n)} {c : Config} (hc : c = cameraConfig ∨ c = laserConfig)
    (h : ∀ p ∈ keypoints, p.1 ≠ 0 ∧ (get names p.1).isSome) : (wireframe keypoints c).isSome := by
  have htab : ∀ t ∈ names.map Prod.fst, t ≠ 0 → (get pointColors t).isSome ∧ (get pointSizes t).isSome := by decide +kernel
  rw [wireframe_iff]
  · intro p hp
    obtain ⟨h0, hn⟩ := h p hp
    obtain ⟨v, hv⟩ := Option.isSome_iff_exists.1 hn
    have := htab p.1 (List.mem_map.2 ⟨_, get_mem hv, rfl⟩) h0
    rcases hc with rfl | rfl
    · exact ⟨this.1, this.2, hn⟩
    · exact ⟨this.1, this.2, hn⟩
  · intro e he as bs w hm
    subst hm
    rcases hc with rfl | rfl
    · simp [cameraConfig, cameraEdges, commonEdges] at he
      obtain ⟨rfl, rfl, -⟩ := he
      simp
    · simp [laserConfig, laserEdges, commonEdges] at he
      obtain ⟨rfl, rfl, -⟩ := he
      simp

/-- C173 fails: a key point of the unspecified type has no wireframe, and the wireframe of no key points, which exists, cannot be
drawn in three dimensions. -/
theorem wireframe_violated (x : Point n) :
    wireframe [(0, x)] cameraConfig = none ∧ wireframe [(0, x)] laserConfig = none ∧
    wireframe (n := n) [] laserConfig = some ([], []) ∧ drawLaser (n := n) ([], []) = none := by
  have h : ∀ c : Config, c = cameraConfig ∨ c = laserConfig → wireframe [(0, x)] c = none := by
    intro c hc
    by_contra hne
    have hs := Option.isSome_iff_ne_none.2 hne
    have he : ∀ e ∈ c.edges, ∀ as bs w, e = .multi as bs w → as ≠ [] ∧ bs ≠ [] := by
      intro e he as bs w hm
      subst hm
      rcases hc with rfl | rfl
      · simp [cameraConfig, cameraEdges, commonEdges] at he
        obtain ⟨rfl, rfl, -⟩ := he
        simp
      · simp [laserConfig, laserEdges, commonEdges] at he
        obtain ⟨rfl, rfl, -⟩ := he
        simp
    have := (wireframe_iff he).1 hs (0, x) (by simp)
    rcases hc with rfl | rfl
    · revert this; simp only; intro this; exact absurd this.1 (by decide)
    · revert this; simp only; intro this; exact absurd this.1 (by decide)
  refine ⟨h _ (Or.inl rfl), h _ (Or.inr rfl), ?_, by simp [drawLaser]⟩
  rfl

/-- The default sizes: the hips have size 1 and no point is larger. -/
theorem pointSizes_spec : get pointSizes 8 = some 1 ∧ ∀ p ∈ pointSizes, 0 < p.2 ∧ p.2 ≤ 1 := by decide +kernel

end

/-! ## Cropping -/

theorem crop_keypoints {P : Type} (image : Image P) (keypoints : List (ℚ × ℚ)) (b : Box) (margin : ℚ) :
    ∃ dx dy : ℕ, (crop image keypoints b margin).2 = keypoints.map (fun p : ℚ × ℚ => (p.1 - (dx : ℚ), p.2 - (dy : ℚ))) ∧
      (∀ y x, y < (crop image keypoints b margin).1.h → x < (crop image keypoints b margin).1.w →
        dy + y < image.h ∧ dx + x < image.w ∧ (crop image keypoints b margin).1.px y x = image.px (dy + y) (dx + x)) := by
  refine ⟨low b.cx b.length margin, low b.cy b.width margin, rfl, ?_⟩
  intro y x hy hx
  have hend : ∀ (len : ℕ) (e : ℤ), sliceEnd len e ≤ len := by
    intro len e
    unfold sliceEnd
    split
    · omega
    · exact min_le_left _ _
  have h1 := hend image.h (high image.h b.cy b.width margin)
  have h2 := hend image.w (high image.w b.cx b.length margin)
  refine ⟨?_, ?_, rfl⟩
  · have : y < sliceEnd image.h (high image.h b.cy b.width margin) - low b.cy b.width margin := hy
    omega
  · have : x < sliceEnd image.w (high image.w b.cx b.length margin) - low b.cx b.length margin := hx
    omega

/-- The pixel of an image in which a point lies. -/
def pixelAt {P : Type} (image : Image P) (p : ℚ × ℚ) : Option P :=
  if 0 ≤ p.1 ∧ 0 ≤ p.2 ∧ p.1 < image.w ∧ p.2 < image.h then some (image.px ⌊p.2⌋.toNat ⌊p.1⌋.toNat) else none

/-- C174: a key point that is inside the cropped image lies in the pixel in which it was in the original image; all key points are
kept in their order. -/
theorem crop_pixel {P : Type} (image : Image P) (keypoints : List (ℚ × ℚ)) (b : Box) (margin : ℚ) :
    List.Forall₂ (fun p q => ∀ v, pixelAt (crop image keypoints b margin).1 q = some v → pixelAt image p = some v)
      keypoints (crop image keypoints b margin).2 := by
  obtain ⟨dx, dy, h1, h2⟩ := crop_keypoints image keypoints b margin
  rw [h1, List.forall₂_map_right_iff, List.forall₂_same]
  intro p _ v hv
  unfold pixelAt at hv
  split at hv
  · rename_i hin
    obtain ⟨i1, i2, i3, i4⟩ := hin
    cases hv
    simp only at i1 i2 i3 i4
    have f1 : 0 ≤ ⌊p.1 - dx⌋ := Int.floor_nonneg.2 i1
    have f2 : 0 ≤ ⌊p.2 - dy⌋ := Int.floor_nonneg.2 i2
    have g1 : ⌊p.1 - (dx : ℚ)⌋ = ⌊p.1⌋ - dx := by exact_mod_cast Int.floor_sub_natCast p.1 dx
    have g2 : ⌊p.2 - (dy : ℚ)⌋ = ⌊p.2⌋ - dy := by exact_mod_cast Int.floor_sub_natCast p.2 dy
    have k1 : ⌊p.1 - (dx : ℚ)⌋.toNat < (crop image keypoints b margin).1.w := by
      have : ⌊p.1 - (dx : ℚ)⌋ < ((crop image keypoints b margin).1.w : ℤ) := Int.floor_lt.2 (by exact_mod_cast i3)
      omega
    have k2 : ⌊p.2 - (dy : ℚ)⌋.toNat < (crop image keypoints b margin).1.h := by
      have : ⌊p.2 - (dy : ℚ)⌋ < ((crop image keypoints b margin).1.h : ℤ) := Int.floor_lt.2 (by exact_mod_cast i4)
      omega
    obtain ⟨m1, m2, m3⟩ := h2 _ _ k2 k1
    have e1 : dx + ⌊p.1 - (dx : ℚ)⌋.toNat = ⌊p.1⌋.toNat := by omega
    have e2 : dy + ⌊p.2 - (dy : ℚ)⌋.toNat = ⌊p.2⌋.toNat := by omega
    show pixelAt image p = some _
    rw [m3, e1, e2]
    unfold pixelAt
    rw [if_pos]
    have c1 : (0 : ℚ) ≤ dx := Nat.cast_nonneg _
    have c2 : (0 : ℚ) ≤ dy := Nat.cast_nonneg _
    refine ⟨by linarith, by linarith, ?_, ?_⟩
    · have : ⌊p.1⌋ < (image.w : ℤ) := by omega
      exact_mod_cast Int.floor_lt.1 this
    · have : ⌊p.2⌋ < (image.h : ℤ) := by omega
      exact_mod_cast Int.floor_lt.1 this
  · simp at hv

theorem axis_inside {len : ℕ} {c s m x : ℚ} (h0 : 0 ≤ x) (hlo : c - (1 + m) * s / 2 ≤ x) (hhi : x < ⌊c + (1 + m) * s / 2⌋)
    (hlen : x < (len : ℚ) - 1) : 0 ≤ x - (low c s m : ℕ) ∧ x - (low c s m : ℕ) < ((sliceEnd len (high len c s m) - low c s m : ℕ) : ℚ) := by
  have hf0 : (0 : ℚ) < ⌊c + (1 + m) * s / 2⌋ := lt_of_le_of_lt h0 hhi
  have hpos : 0 < ⌊c + (1 + m) * s / 2⌋ := by exact_mod_cast hf0
  have hnn : 0 ≤ c + (1 + m) * s / 2 := by
    have := Int.floor_le (c + (1 + m) * s / 2)
    linarith
  have hlow : ((low c s m : ℕ) : ℤ) ≤ ⌊x⌋ := by
    unfold low
    rw [Int.toNat_of_nonneg (le_max_left _ _)]
    apply max_le (Int.floor_nonneg.2 h0)
    unfold trunc
    split
    · exact Int.floor_le_floor hlo
    · rename_i hneg
      have : ⌈c - (1 + m) * s / 2⌉ ≤ 0 := Int.ceil_le.2 (by push_cast; linarith)
      exact this.trans (Int.floor_nonneg.2 h0)
  have hx1 : ⌊x⌋ < ⌊c + (1 + m) * s / 2⌋ := Int.floor_lt.2 hhi
  have hx2 : ⌊x⌋ < (len : ℤ) - 1 := Int.floor_lt.2 (by push_cast; exact hlen)
  have hh : high len c s m = min ((len : ℤ) - 1) ⌊c + (1 + m) * s / 2⌋ := by
    unfold high trunc; rw [if_pos hnn]
  have hfl := Int.floor_nonneg.2 h0
  have hend : ⌊x⌋ + 1 ≤ (sliceEnd len (high len c s m) : ℤ) := by
    rw [hh]
    unfold sliceEnd
    rw [if_neg (by omega)]
    omega
  have hxlt := Int.lt_floor_add_one x
  have hxge := Int.floor_le x
  have q1 : ((low c s m : ℕ) : ℚ) ≤ ⌊x⌋ := by exact_mod_cast hlow
  have q2 : (⌊x⌋ : ℚ) + 1 ≤ ((sliceEnd len (high len c s m) : ℕ) : ℚ) := by exact_mod_cast hend
  rw [Nat.cast_sub (by omega)]
  constructor <;> linarith

/-- C174: key points in the box, enlarged by the margin, stay in the cropped image, if they are not in the last row or column of
pixels of the image and not in the last pixels that the box covers only in part. -/
theorem crop_inside_partial {P : Type} (image : Image P) (keypoints : List (ℚ × ℚ)) (b : Box) (margin : ℚ) {p : ℚ × ℚ}
    (hp : p ∈ keypoints) (hx : 0 ≤ p.1 ∧ p.1 < (image.w : ℚ) - 1) (hy : 0 ≤ p.2 ∧ p.2 < (image.h : ℚ) - 1)
    (bx : b.cx - (1 + margin) * b.length / 2 ≤ p.1 ∧ p.1 < ⌊b.cx + (1 + margin) * b.length / 2⌋)
    (bY : b.cy - (1 + margin) * b.width / 2 ≤ p.2 ∧ p.2 < ⌊b.cy + (1 + margin) * b.width / 2⌋) :
    ∃ q ∈ (crop image keypoints b margin).2, pixelAt (crop image keypoints b margin).1 q = pixelAt image p ∧
      pixelAt image p ≠ none := by
  have i1 := axis_inside hx.1 bx.1 bx.2 hx.2
  have i2 := axis_inside hy.1 bY.1 bY.2 hy.2
  have hmem : (p.1 - (low b.cx b.length margin : ℕ), p.2 - (low b.cy b.width margin : ℕ)) ∈ (crop image keypoints b margin).2 :=
    List.mem_map.2 ⟨p, hp, rfl⟩
  have hin : ∃ v, pixelAt (crop image keypoints b margin).1
      (p.1 - (low b.cx b.length margin : ℕ), p.2 - (low b.cy b.width margin : ℕ)) = some v := by
    unfold pixelAt
    rw [if_pos ⟨i1.1, i2.1, i1.2, i2.2⟩]
    exact ⟨_, rfl⟩
  obtain ⟨v, hv⟩ := hin
  have hall := crop_pixel image [p] b margin
  have h2 : pixelAt image p = some v := by
    cases hall with
    | cons h _ => exact h v hv
  exact ⟨_, hmem, by rw [hv, h2], by rw [h2]; simp⟩

/-- C174 fails: cropping to a box that covers the whole image drops the last row and column with the key points in it; and the crop to
a box beside the image is not empty but almost the whole image. -/
theorem crop_violated {P : Type} (px : ℕ → ℕ → P) :
    (crop ⟨4, 4, px⟩ [(7 / 2, 7 / 2)] ⟨2, 2, 4, 4⟩ 0).1.h = 3 ∧ (crop ⟨4, 4, px⟩ [(7 / 2, 7 / 2)] ⟨2, 2, 4, 4⟩ 0).1.w = 3 ∧
    (crop ⟨4, 4, px⟩ [(7 / 2, 7 / 2)] ⟨2, 2, 4, 4⟩ 0).2 = [(7 / 2, 7 / 2)] ∧
    (crop ⟨10, 10, px⟩ [] ⟨-3, 5, 2, 4⟩ 0).1.w = 8 := by
  refine ⟨?_, ?_, ?_, ?_⟩
  · show sliceEnd 4 (high 4 2 4 0) - low 2 4 0 = 3; decide +kernel
  · show sliceEnd 4 (high 4 2 4 0) - low 2 4 0 = 3; decide +kernel
  · show [((7 / 2 : ℚ) - (low 2 4 0 : ℕ), (7 / 2 : ℚ) - (low 2 4 0 : ℕ))] = _
    have : low 2 4 0 = 0 := by decide +kernel
    rw [this]; norm_num
  · show sliceEnd 10 (high 10 (-3) 2 0) - low (-3) 2 0 = 8; decide +kernel

/-- The hypotheses of `crop_inside_partial` are met. -/
example : (0 : ℚ) ≤ 5 / 2 ∧ (5 / 2 : ℚ) < ((10 : ℕ) : ℚ) - 1 ∧ (3 : ℚ) - (1 + 1 / 2) * 2 / 2 ≤ 5 / 2 ∧
    (5 / 2 : ℚ) < ⌊(3 : ℚ) + (1 + 1 / 2) * 2 / 2⌋ := by decide +kernel

/-- A wireframe with an edge, an average and an occluded point. -/
example : ∃ w, wireframe (n := 2) [(5, fun i => i.1, false), (13, fun _ => 2, true), (19, fun i => 1 - i.1, false)] cameraConfig = some w ∧
    w.1.length = 4 ∧ w.2.map Dot.name = ["LEFT_SHOULDER", "RIGHT_SHOULDER?", "FOREHEAD"] := by
  refine ⟨_, rfl, ?_, ?_⟩ <;> decide +kernel

end Verif.Wireframe
