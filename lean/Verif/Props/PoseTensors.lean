import Verif.Model.PoseTensors
import Verif.Props.PoseMetric

/-!
# Tensors of poses: properties

C186: the tensors of the poses of a frame describe the objects with key points, in order, key points and boxes alike.
-/

namespace Verif.PoseTensors

open Verif.Boxes Verif.Pose

noncomputable section

/-- The objects that have key points, with them. -/
def kept (poses : List Input) : List (List (ℤ × (V3 × Bool)) × Option LabelBox) :=
  poses.filterMap fun p => p.keypoints.map fun ks => (ks, p.box)

/-- The location and visibility that a type has: those of the last key point of the type; the given location and 0 if there is
none; the visibility is 1 if it is occluded and 2 otherwise. -/
def entry (default : V3) (ks : List (ℤ × (V3 × Bool))) (t : ℤ) : V3 × ℤ :=
  match ks.reverse.find? fun k => k.1 == t with
  | none => (default, 0)
  | some k => (k.2.1, if k.2.2 then 1 else 2)

theorem laserKeypoints_eq (ks : List (ℤ × (V3 × Bool))) (default : V3) {order : List ℤ} (h : order ≠ []) :
    laserKeypoints ks default order =
      some ⟨order.map fun t => (entry default ks t).1, order.map fun t => (entry default ks t).2⟩ := by
  unfold laserKeypoints stack
  dsimp only
  rw [if_neg (by simpa using h)]
  simp only [Option.bind_eq_bind, Option.bind_some, Option.pure_def, List.map_map, Option.some.injEq, Row.mk.injEq]
  constructor
  all_goals
    apply List.map_congr_left
    intro t _
    simp only [Function.comp, byType_spec, entry]
    cases ks.reverse.find? fun k => k.1 == t with
    | none => rfl
    | some k => rfl

theorem laserKeypoints_none (ks : List (ℤ × (V3 × Bool))) (default : V3) : laserKeypoints ks default [] = none := rfl

theorem collect_spec (default : V3) {order : List ℤ} (h : order ≠ []) (poses : List Input) (acc : List Row × List BoxT) :
    poses.foldlM (collect default order) acc = some
      (acc.1 ++ (kept poses).map fun k => ⟨order.map fun t => (entry default k.1 t).1, order.map fun t => (entry default k.1 t).2⟩,
       acc.2 ++ ((kept poses).filterMap Prod.snd).map laserBox) := by
  induction poses generalizing acc with
  | nil => simp [kept]
  | cons p poses ih =>
    rw [List.foldlM_cons]
    obtain ⟨box, ks⟩ := p
    cases ks with
    | none =>
      simp only [collect, Option.bind_eq_bind, Option.bind_some, ih]
      rfl
    | some ks =>
      simp only [collect, laserKeypoints_eq ks default h, Option.bind_eq_bind, Option.bind_some, Option.pure_def, ih]
      cases box <;> simp [kept]

/-- C186: headings are stacked exactly if all boxes have one; with none there are none; otherwise it is an error. -/
theorem stackHeadings_spec {bs : List BoxT} (hb : bs ≠ []) :
    ((∀ b ∈ bs, b.heading = none) → stackHeadings bs = some none) ∧
    ((∀ b ∈ bs, b.heading.isSome) → ∃ hs, stackHeadings bs = some (some hs) ∧ hs.length = bs.length ∧
      ∀ (i : ℕ) b, bs[i]? = some b → hs[i]? = b.heading) ∧
    ((∃ b ∈ bs, b.heading = none) → (∃ b ∈ bs, b.heading.isSome) → stackHeadings bs = none) := by
  have count : ∀ l : List BoxT, (l.map fun b => if b.heading.isSome then 1 else 0).sum = l.countP fun b => b.heading.isSome := by
    intro l
    induction l with
    | nil => rfl
    | cons b l ih =>
      rw [List.map_cons, List.sum_cons, ih, List.countP_cons, Nat.add_comm]
  unfold stackHeadings
  simp only [count]
  refine ⟨?_, ?_, ?_⟩
  · intro h
    rw [if_pos]
    rw [List.countP_eq_zero]
    intro b hm
    rw [h b hm]
    simp
  · intro h
    have hc : bs.countP (fun b => b.heading.isSome) = bs.length := List.countP_eq_length.2 h
    rw [hc, if_neg (by simpa using hb), if_pos rfl]
    have hm : ∀ l : List BoxT, (∀ b ∈ l, b.heading.isSome) → ∃ hs, l.mapM BoxT.heading = some hs ∧ hs.length = l.length ∧
        ∀ (i : ℕ) b, l[i]? = some b → hs[i]? = b.heading := by
      intro l
      induction l with
      | nil => intro _; exact ⟨[], rfl, rfl, fun i b hi => by simp at hi⟩
      | cons b l ih =>
        intro hl
        obtain ⟨hs, e1, e2, e3⟩ := ih fun x hx => hl x (List.mem_cons_of_mem _ hx)
        obtain ⟨y, hy⟩ := Option.isSome_iff_exists.1 (hl b List.mem_cons_self)
        refine ⟨y :: hs, ?_, by simp [e2], ?_⟩
        · rw [List.mapM_cons, hy, e1]
          rfl
        · intro i c hi
          cases i with
          | zero => simp at hi; rw [← hi, hy]; rfl
          | succ i => simpa using e3 i c (by simpa using hi)
    obtain ⟨hs, e1, e2, e3⟩ := hm bs h
    refine ⟨hs, ?_, e2, e3⟩
    rw [e1, Option.bind_some]
    unfold stack
    rw [if_neg]
    · rfl
    · rintro rfl
      exact hb (List.length_eq_zero_iff.1 e2.symm)
  · rintro ⟨b, hb1, hb2⟩ ⟨c, hc1, hc2⟩
    rw [if_neg, if_neg]
    · intro he
      have := List.countP_eq_length.1 he b hb1
      rw [hb2] at this
      simp at this
    · intro he
      exact (List.countP_eq_zero.1 he) c hc1 hc2

theorem stackBoxes_laser {bs : List LabelBox} (hb : bs ≠ []) : stackBoxes (bs.map laserBox) =
    some ⟨bs.map LabelBox.center, bs.map fun b => laserSize b.size, some (bs.map LabelBox.heading)⟩ := by
  have hb' : bs.map laserBox ≠ [] := by simpa using hb
  obtain ⟨hs, e1, e2, e3⟩ := (stackHeadings_spec hb').2.1 (by
    intro b hm
    obtain ⟨x, -, rfl⟩ := List.mem_map.1 hm
    rfl)
  unfold stackBoxes stack
  rw [if_neg (by simpa using hb), if_neg (by simpa using hb), e1]
  simp only [Option.bind_eq_bind, Option.bind_some, Option.pure_def, List.map_map, Option.some.injEq, BoxesT.mk.injEq]
  refine ⟨rfl, rfl, ?_⟩
  apply List.ext_getElem?
  intro i
  cases hi : bs[i]? with
  | none =>
    rw [List.getElem?_map, hi, List.getElem?_eq_none (by rw [e2, List.length_map]; exact List.getElem?_eq_none_iff.1 hi)]
    rfl
  | some b => rw [List.getElem?_map, hi, e3 i (laserBox b) (by rw [List.getElem?_map, hi]; rfl)]; rfl

/-- C186: what is created, for all poses and orders with a type. -/
theorem create_spec (poses : List Input) (default : V3) {order : List ℤ} (ho : order ≠ []) :
    create poses default order = some
      ⟨⟨(kept poses).map fun k => order.map fun t => (entry default k.1 t).1,
        (kept poses).map fun k => order.map fun t => (entry default k.1 t).2, order.length⟩,
       if kept poses = [] then some ⟨[], [], some []⟩
       else if (kept poses).filterMap Prod.snd = [] then none
       else some ⟨((kept poses).filterMap Prod.snd).map LabelBox.center,
         ((kept poses).filterMap Prod.snd).map fun b => laserSize b.size,
         some (((kept poses).filterMap Prod.snd).map LabelBox.heading)⟩⟩ := by
  unfold create
  rw [collect_spec default ho]
  simp only [Option.bind_eq_bind, Option.bind_some, Option.pure_def, List.nil_append, List.map_eq_nil_iff]
  by_cases hk : kept poses = []
  · rw [if_pos hk, hk]
    simp
  · rw [if_neg hk, if_neg hk]
    unfold stackKeypoints stack
    rw [if_neg (by simpa using hk), if_neg (by simpa using hk)]
    simp only [Option.bind_eq_bind, Option.bind_some, Option.pure_def, List.map_map]
    by_cases hb : (kept poses).filterMap Prod.snd = []
    · rw [if_pos hb, if_pos hb, if_neg hk]
      rfl
    · rw [if_neg hb, if_neg hb, if_neg hk, stackBoxes_laser hb]
      rfl

/-- C186: the location and the visibility in row `i` and column `j` are those of the key point of the `j`th type of the `i`th
object with key points; there are no further rows or columns. -/
theorem create_points {poses : List Input} {default : V3} {order : List ℤ} {out : Output}
    (h : create poses default order = some out) :
    out.keypoints.location.length = (kept poses).length ∧ out.keypoints.visibility.length = (kept poses).length ∧
    out.keypoints.points = order.length ∧
    ∀ (i : ℕ) k, (kept poses)[i]? = some k → ∃ l v, out.keypoints.location[i]? = some l ∧
      out.keypoints.visibility[i]? = some v ∧ l.length = order.length ∧ v.length = order.length ∧
      ∀ (j : ℕ) t, order[j]? = some t → l[j]? = some (entry default k.1 t).1 ∧ v[j]? = some (entry default k.1 t).2 := by
  by_cases ho : order = []
  · subst ho
    have hk : kept poses = [] := by
      by_contra hk
      have hn : ∀ (ps : List Input), kept ps ≠ [] → ∀ acc, ps.foldlM (collect default []) acc = none := by
        intro ps
        induction ps with
        | nil => intro h; exact absurd rfl h
        | cons p ps ih =>
          intro hne acc
          rw [List.foldlM_cons]
          obtain ⟨box, ks⟩ := p
          cases ks with
          | none => exact ih hne _
          | some ks => rfl
      unfold create at h
      rw [hn poses hk] at h
      simp at h
    have hf : ∀ (ps : List Input), kept ps = [] → ∀ acc, ps.foldlM (collect default []) acc = some acc := by
      intro ps
      induction ps with
      | nil => intros; rfl
      | cons p ps ih =>
        intro he acc
        obtain ⟨box, ks⟩ := p
        cases ks with
        | none => rw [List.foldlM_cons]; exact ih he _
        | some ks => simp [kept] at he
    unfold create at h
    rw [hf poses hk] at h
    simp only [Option.bind_eq_bind, Option.bind_some, if_true, Option.pure_def, Option.some.injEq] at h
    subst h
    rw [hk]
    exact ⟨rfl, rfl, rfl, fun i k hi => by simp at hi⟩
  · rw [create_spec poses default ho, Option.some.injEq] at h
    subst h
    refine ⟨by simp, by simp, rfl, ?_⟩
    intro i k hi
    refine ⟨_, _, by rw [List.getElem?_map, hi]; rfl, by rw [List.getElem?_map, hi]; rfl, by simp, by simp, ?_⟩
    intro j t hj
    exact ⟨by rw [List.getElem?_map, hj]; rfl, by rw [List.getElem?_map, hj]; rfl⟩

/-- C186 is proved for boxes where all objects with key points have one, as labels do, or none has: row `i` is the box of the
`i`th object with key points, with length, width and height in this order; without boxes there are none; without objects there
are no rows. -/
theorem create_boxes_partial {poses : List Input} {default : V3} {order : List ℤ} {out : Output} (ho : order ≠ [])
    (h : create poses default order = some out) :
    (kept poses ≠ [] → (∀ k ∈ kept poses, k.2 = none) → out.box = none) ∧
    ((∀ k ∈ kept poses, k.2.isSome) → ∃ b hs, out.box = some b ∧ b.heading = some hs ∧
      b.center.length = (kept poses).length ∧ b.size.length = (kept poses).length ∧ hs.length = (kept poses).length ∧
      ∀ (i : ℕ) k x, (kept poses)[i]? = some k → k.2 = some x → b.center[i]? = some x.center ∧
        b.size[i]? = some ![x.size.length, x.size.width, x.size.height] ∧ hs[i]? = some x.heading) := by
  rw [create_spec poses default ho, Option.some.injEq] at h
  subst h
  constructor
  · intro hk hn
    dsimp only
    rw [if_neg hk, if_pos]
    rw [List.filterMap_eq_nil_iff]
    exact hn
  · intro hs
    dsimp only
    have hfm : ∀ l : List (List (ℤ × (V3 × Bool)) × Option LabelBox), (∀ k ∈ l, k.2.isSome) →
        (l.filterMap Prod.snd).length = l.length ∧ ∀ (i : ℕ) k, l[i]? = some k → (l.filterMap Prod.snd)[i]? = k.2 := by
      intro l
      induction l with
      | nil => intro _; exact ⟨rfl, fun i k hi => by simp at hi⟩
      | cons a l ih =>
        intro hl
        obtain ⟨e1, e2⟩ := ih fun x hx => hl x (List.mem_cons_of_mem _ hx)
        obtain ⟨y, hy⟩ := Option.isSome_iff_exists.1 (hl a List.mem_cons_self)
        rw [List.filterMap_cons_some hy]
        refine ⟨by simp [e1], ?_⟩
        intro i k hi
        cases i with
        | zero => simp at hi; rw [← hi, hy]; rfl
        | succ i => simpa using e2 i k (by simpa using hi)
    by_cases hk : kept poses = []
    · rw [hk, if_pos rfl]
      exact ⟨_, _, rfl, rfl, rfl, rfl, rfl, fun i k x hi => by simp at hi⟩
    · obtain ⟨e1, e2⟩ := hfm _ hs
      rw [if_neg hk, if_neg (by
        intro he
        rw [he] at e1
        exact hk (List.length_eq_zero_iff.1 e1.symm))]
      refine ⟨_, _, rfl, rfl, by simp [e1], by simp [e1], by simp [e1], ?_⟩
      intro i k x hi hx
      have := e2 i k hi
      rw [hx] at this
      refine ⟨by rw [List.getElem?_map, this]; rfl, by rw [List.getElem?_map, this]; rfl, by rw [List.getElem?_map, this]; rfl⟩

/-- Two objects with boxes and one without key points. -/
example : ∃ poses : List Input, poses.length = 3 ∧ (kept poses).length = 2 ∧ (∀ k ∈ kept poses, k.2.isSome) ∧
    ∃ out, create poses 0 [1, 2] = some out ∧ out.keypoints.visibility = [[2, 0], [0, 1]] := by
  refine ⟨[⟨some ⟨0, ⟨1, 2, 3⟩, 0⟩, some [(1, (0, false))]⟩, ⟨none, none⟩, ⟨some ⟨0, ⟨4, 5, 6⟩, 0⟩, some [(2, (0, true))]⟩],
    rfl, rfl, ?_, _, create_spec _ _ (by simp), ?_⟩
  · intro k hk
    simp [kept] at hk
    rcases hk with rfl | rfl <;> rfl
  · simp [kept, entry]

/-- C186 is violated: if only the second of two predictions has a box, there is one box in row 0, beside the key points of the
first. -/
theorem create_boxes_violated (default : V3) : ∃ (a b : Input) (x : LabelBox) (out : Output) (bt : BoxesT),
    a.box = none ∧ b.box = some x ∧ kept [a, b] = [([(1, ((0 : V3), false))], none), ([(1, ((1 : V3), false))], some x)] ∧
    create [a, b] default [1] = some out ∧ out.keypoints.location = [[0], [1]] ∧ out.box = some bt ∧
    bt.center = [x.center] := by
  refine ⟨⟨none, some [(1, (0, false))]⟩, ⟨some ⟨1, ⟨1, 1, 1⟩, 0⟩, some [(1, (1, false))]⟩, ⟨1, ⟨1, 1, 1⟩, 0⟩, _,
    ⟨[1], [laserSize ⟨1, 1, 1⟩], some [0]⟩, rfl, rfl, rfl, create_spec _ _ (by simp), ?_, ?_, rfl⟩
  · simp [kept, entry]
  · dsimp only
    rw [if_neg (by simp [kept]), if_neg (by simp [kept])]
    simp [kept]

/-- C186 is violated: objects of a frame always have a list of key points, if only an empty one; those without a key point are
not left out but have rows in which all are missing. -/
theorem no_points_violated (n : ℕ) (default : V3) : ∃ poses : List Input, (∀ p ∈ poses, p.keypoints = some []) ∧
    ∃ out, create poses default [1] = some out ∧ out.keypoints.visibility = List.replicate n [0] ∧
      out.keypoints.location = List.replicate n [default] := by
  have hk : kept (List.replicate n ⟨none, some []⟩) = List.replicate n ([], none) := by
    induction n with
    | zero => rfl
    | succ n ih => rw [List.replicate_succ, List.replicate_succ, ← ih]; rfl
  refine ⟨List.replicate n ⟨none, some []⟩, fun p hp => by rw [List.eq_of_mem_replicate hp], _, create_spec _ _ (by simp), ?_, ?_⟩
  · rw [hk]; simp [entry]
  · rw [hk]; simp [entry]

/-- C186 is violated: without types there are tensors for no objects, but it is an error for any object with key points. -/
theorem no_types_violated (default : V3) :
    (∃ out, create [] default [] = some out) ∧ ∀ (p : Input) (ps : List Input), p.keypoints.isSome → create (p :: ps) default [] = none := by
  constructor
  · exact ⟨⟨⟨[], [], 0⟩, some ⟨[], [], some []⟩⟩, by simp [create]⟩
  · intro p ps hp
    obtain ⟨box, ks⟩ := p
    cases ks with
    | none => simp at hp
    | some ks => rfl

/-- C186: taking a subset of the types afterwards is the same as asking for the subset. -/
theorem create_subset {poses : List Input} {default : V3} {src dst : List ℤ} (hs : src.Nodup) (hd : dst ≠ [])
    (hsub : ∀ t ∈ dst, t ∈ src) : ∃ a b, create poses default src = some a ∧ create poses default dst = some b ∧
      subset a.keypoints src dst = some b.keypoints ∧ a.box = b.box := by
  have hne : src ≠ [] := by
    rintro rfl
    obtain ⟨t, ht⟩ := List.exists_mem_of_ne_nil _ hd
    simpa using hsub t ht
  refine ⟨_, _, create_spec poses default hne, create_spec poses default hd, ?_, rfl⟩
  have key : ∀ {α : Type} (f : ℤ → α), selectSubset (src.map f) src dst = some (dst.map f) := by
    intro α f
    obtain ⟨out, h1, h2, h3⟩ := selectSubset_spec (values := src.map f) (dst := dst) hs (by simp) hsub
    rw [h1, Option.some.injEq]
    apply List.ext_getElem?
    intro j
    cases hj : dst[j]? with
    | none =>
      rw [List.getElem?_map, hj, List.getElem?_eq_none (by rw [h2]; exact List.getElem?_eq_none_iff.1 hj)]
      rfl
    | some t =>
      obtain ⟨i, hi⟩ := List.getElem?_of_mem (hsub t (List.mem_of_getElem? hj))
      rw [h3 j t i hj hi, List.getElem?_map, hi, List.getElem?_map, hj]
  have rows : ∀ {α β : Type} (l : List β) (f : β → ℤ → α),
      (l.map fun k => src.map (f k)).mapM (fun r => selectSubset r src dst) = some (l.map fun k => dst.map (f k)) := by
    intro α β l f
    induction l with
    | nil => rfl
    | cons k l ih => rw [List.map_cons, List.mapM_cons, ih, key (f k)]; rfl
  unfold subset
  dsimp only
  rw [rows, rows]
  simp only [guard, Option.bind_eq_bind]
  rw [if_pos ⟨trivial, hsub, hd⟩]
  rfl

/-- C186: the corners of a box: the center is midway, and they are as far apart as the size says. -/
theorem corners (b : BoxT) (i : Fin 3) : (b.minCorner i + b.maxCorner i) / 2 = b.center i ∧
    b.maxCorner i - b.minCorner i = b.size i ∧ (0 ≤ b.size i → b.minCorner i ≤ b.center i ∧ b.center i ≤ b.maxCorner i) := by
  unfold BoxT.minCorner BoxT.maxCorner
  refine ⟨by ring, by ring, fun h => ⟨by linarith, by linarith⟩⟩

end

end Verif.PoseTensors
