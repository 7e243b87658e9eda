import Verif.Props.OpsMatchUse
import Verif.Props.PoseReorder
import Verif.Model.BoxMatcher

/-! C216: objects with key points are matched by their boxes. -/

namespace Verif.BoxMatcher

open Verif.OpsMatch
open Verif.Ops (Box)
open Verif.Matcher

/-- Specification: the box that a row stands for. -/
def given (b : Item) : Box := ⟨some (b.center 0), some (b.center 1), some (b.center 2), some (b.size 0), some (b.size 1), some (b.size 2), some b.heading⟩

/-- Specification: a box moved upwards. -/
def lift (b : Box) (z : ℚ) : Box := { b with cz := b.cz.map (· + z) }

/-- Specification: the row at a position. -/
def at' (l : List Item) (i : ℕ) : Item := l.getD i ⟨0, 0, 0⟩

/-- Specification: pairs of ground truth and prediction, none twice, whose boxes have positive sizes and an IoU of at least the threshold. -/
structure Legal (iou : Box → Box → ℚ) (threshold : ℚ) (gt pr : List Item) (ids : List (ℕ × ℕ)) : Prop where
  gtNodup : (ids.map Prod.fst).Nodup
  prNodup : (ids.map Prod.snd).Nodup
  fits : ∀ m ∈ ids, m.1 < gt.length ∧ m.2 < pr.length ∧ (∀ i, 0 < (at' gt m.1).size i) ∧ (∀ i, 0 < (at' pr m.2).size i) ∧
    threshold ≤ iou (given (at' pr m.2)) (given (at' gt m.1))

/-- Specification: the total IoU of pairs, in rounded millionths. -/
def total (iou : Box → Box → ℚ) (gt pr : List Item) (ids : List (ℕ × ℕ)) : ℤ :=
  (ids.map fun m => roundHalfAway (iou (given (at' pr m.2)) (given (at' gt m.1)) * 1000000)).sum

theorem flat_eq {b : Items} {t : Tensor} (h : boxToTensor b = some t) (k : ℕ) :
    flatBox 7 t.data k = lift (given (at' b.rows k)) ((at' b.rows k).size 2 / 2) := by
  unfold boxToTensor at h
  split_ifs at h
  cases h
  have key : ∀ c < 7, (k * 7 + c) / 7 = k ∧ (k * 7 + c) % 7 = c := fun c hc => by omega
  unfold flatBox
  simp only [if_true]
  rw [(key 0 (by omega)).1, (key 0 (by omega)).2, (key 1 (by omega)).1, (key 1 (by omega)).2, (key 2 (by omega)).1, (key 2 (by omega)).2,
    (key 3 (by omega)).1, (key 3 (by omega)).2, (key 4 (by omega)).1, (key 4 (by omega)).2, (key 5 (by omega)).1, (key 5 (by omega)).2,
    (key 6 (by omega)).1, (key 6 (by omega)).2]
  rfl

theorem shape_eq {b : Items} {t : Tensor} (h : boxToTensor b = some t) : t.shape = [b.rows.length, 7] ∧ b.headed = true := by
  unfold boxToTensor at h
  split_ifs at h with hh
  cases h
  exact ⟨rfl, hh⟩

theorem pyMatch_eq (iouOf : ℕ → Box → Box → ℚ) (kind : Kind) (threshold : ℚ) {gt pr : Items} {g p : Tensor} (hg : boxToTensor gt = some g)
    (hp : boxToTensor pr = some p) : pyMatch iouOf p g threshold 1 kind none =
      matchOp iouOf (pyConfig threshold 1 kind none) ⟨[1, pr.rows.length, 7], p.data⟩ ⟨[1, gt.rows.length, 7], g.data⟩ := by
  unfold pyMatch batched
  rw [(shape_eq hg).1, (shape_eq hp).1]
  simp

/-- What is matched: the boxes are moved upwards by half of their own height. -/
theorem matchingIds_lifted {iouOf : ℕ → Box → Box → ℚ} (h01 : ∀ a b, 0 ≤ iouOf 1 a b ∧ iouOf 1 a b ≤ 1) (threshold : ℚ) {gt pr : Items}
    (hg : gt.headed = true) (hp : pr.headed = true) :
    ∃ out : List MatchResult, matchingIds iouOf .hungarian threshold gt pr = some (out.map fun r => (r.truth, r.prediction)) ∧
      OneToOne iouOf (pyConfig threshold 1 .hungarian none) (fun k => lift (given (at' pr.rows k)) ((at' pr.rows k).size 2 / 2))
        (fun k => lift (given (at' gt.rows k)) ((at' gt.rows k).size 2 / 2)) pr.rows.length gt.rows.length (out.map MatchResult.pair) ∧
      ∀ A, OneToOne iouOf (pyConfig threshold 1 .hungarian none) (fun k => lift (given (at' pr.rows k)) ((at' pr.rows k).size 2 / 2))
          (fun k => lift (given (at' gt.rows k)) ((at' gt.rows k).size 2 / 2)) pr.rows.length gt.rows.length A →
        value iouOf (pyConfig threshold 1 .hungarian none) (fun k => lift (given (at' pr.rows k)) ((at' pr.rows k).size 2 / 2))
          (fun k => lift (given (at' gt.rows k)) ((at' gt.rows k).size 2 / 2)) A ≤
        value iouOf (pyConfig threshold 1 .hungarian none) (fun k => lift (given (at' pr.rows k)) ((at' pr.rows k).size 2 / 2))
          (fun k => lift (given (at' gt.rows k)) ((at' gt.rows k).size 2 / 2)) (out.map MatchResult.pair) := by
  obtain ⟨g, eg⟩ : ∃ g, boxToTensor gt = some g := by unfold boxToTensor; rw [if_pos hg]; exact ⟨_, rfl⟩
  obtain ⟨p, ep⟩ : ∃ p, boxToTensor pr = some p := by unfold boxToTensor; rw [if_pos hp]; exact ⟨_, rfl⟩
  have hs : Sane iouOf (pyConfig threshold 1 .hungarian none) :=
    ⟨rfl, rfl, Or.inl rfl, fun a b => h01 a b, fun a b => by simp [affFn, pyConfig]⟩
  obtain ⟨out, e, leg, -, -, best⟩ := matchOp_spec hs (b := 1) (n := pr.rows.length) (m := gt.rows.length) (d := 7)
    (pred := ⟨[1, pr.rows.length, 7], p.data⟩) (gt := ⟨[1, gt.rows.length, 7], g.data⟩) ⟨rfl, rfl, Or.inr (Or.inr ⟨rfl, rfl⟩)⟩
  have fp : flatBox 7 p.data = fun k => lift (given (at' pr.rows k)) ((at' pr.rows k).size 2 / 2) := funext fun k => flat_eq ep k
  have fg : flatBox 7 g.data = fun k => lift (given (at' gt.rows k)) ((at' gt.rows k).size 2 / 2) := funext fun k => flat_eq eg k
  have l1 := leg.pairs
  simp only [fp, fg, one_mul] at l1 best
  refine ⟨out, ?_, l1, ?_⟩
  · unfold matchingIds
    rw [eg, ep]
    simp only [Option.bind_eq_bind, Option.bind_some, Option.pure_def]
    rw [pyMatch_eq iouOf _ threshold eg ep, e]
    rfl
  · intro A hA
    refine best A ⟨by simpa only [fp, fg, one_mul] using hA, ?_⟩
    intro x hx
    have := hA.fits x hx
    rw [Nat.div_eq_of_lt this.1, Nat.div_eq_of_lt this.2.1]

/-- **C216, what holds**: if all boxes have one height, and the IoU does not change if both boxes are moved upwards, then the pairs are legal and their
total IoU is the largest. -/
theorem matchingIds_partial {iouOf : ℕ → Box → Box → ℚ} (h01 : ∀ a b, 0 ≤ iouOf 1 a b ∧ iouOf 1 a b ≤ 1)
    (hl : ∀ a b z, iouOf 1 (lift a z) (lift b z) = iouOf 1 a b) (threshold : ℚ) {gt pr : Items} (hg : gt.headed = true) (hp : pr.headed = true)
    (height : ℚ) (hh : ∀ b ∈ gt.rows ++ pr.rows, b.size 2 = height) :
    ∃ ids, matchingIds iouOf .hungarian threshold gt pr = some ids ∧ Legal (iouOf 1) threshold gt.rows pr.rows ids ∧
      ∀ A, Legal (iouOf 1) threshold gt.rows pr.rows A → total (iouOf 1) gt.rows pr.rows A ≤ total (iouOf 1) gt.rows pr.rows ids := by
  obtain ⟨out, e, leg, best⟩ := matchingIds_lifted h01 threshold hg hp
  have hgt : ∀ i < gt.rows.length, (at' gt.rows i).size 2 = height := fun i hi => hh _ (by
    rw [List.mem_append]; left; unfold at'; rw [List.getD_eq_getElem?_getD, List.getElem?_eq_getElem hi]; exact List.getElem_mem hi)
  have hpr : ∀ i < pr.rows.length, (at' pr.rows i).size 2 = height := fun i hi => hh _ (by
    rw [List.mem_append]; right; unfold at'; rw [List.getD_eq_getElem?_getD, List.getElem?_eq_getElem hi]; exact List.getElem_mem hi)
  have hfit : ∀ i j, i < gt.rows.length → j < pr.rows.length →
      (Fit iouOf (pyConfig threshold 1 .hungarian none) (lift (given (at' pr.rows j)) ((at' pr.rows j).size 2 / 2))
        (lift (given (at' gt.rows i)) ((at' gt.rows i).size 2 / 2)) ↔
      (∀ k, 0 < (at' gt.rows i).size k) ∧ (∀ k, 0 < (at' pr.rows j).size k) ∧ threshold ≤ iouOf 1 (given (at' pr.rows j)) (given (at' gt.rows i))) := by
    intro i j hi hj
    rw [hgt i hi, hpr j hj]
    unfold Fit iouFn pyConfig
    simp only [Option.map_none, Option.getD_none, hl]
    have sol : ∀ b : Item, Solid 1 (lift (given b) (height / 2)) ↔ ∀ k, 0 < b.size k := by
      intro b
      unfold Solid lift given
      simp only [Option.getD_some, true_imp_iff]
      constructor
      · rintro ⟨h0, h1, h2⟩ k
        fin_cases k
        · exact h0
        · exact h1
        · exact h2
      · intro h; exact ⟨h 0, h 1, h 2⟩
    rw [sol, sol]
    simp only [List.getD_cons_succ, List.getD_cons_zero]
    constructor
    · rintro ⟨a, b, c, -⟩; exact ⟨b, a, c⟩
    · rintro ⟨a, b, c⟩; exact ⟨b, a, c, fun h => absurd rfl h⟩
  have hworth : ∀ A, (∀ x ∈ A, x.1 < pr.rows.length ∧ x.2 < gt.rows.length) →
      value iouOf (pyConfig threshold 1 .hungarian none) (fun k => lift (given (at' pr.rows k)) ((at' pr.rows k).size 2 / 2))
          (fun k => lift (given (at' gt.rows k)) ((at' gt.rows k).size 2 / 2)) A = total (iouOf 1) gt.rows pr.rows (A.map Prod.swap) := by
    intro A hA
    unfold value total
    rw [List.map_map]
    congr 1
    apply List.map_congr_left
    intro x hx
    obtain ⟨h1, h2⟩ := hA x hx
    simp only [Function.comp, Prod.fst_swap, Prod.snd_swap]
    unfold worth iouFn affFn pyConfig
    simp only [Option.map_none, Option.getD_none, mul_one]
    rw [hgt _ h2, hpr _ h1, hl]
  have hswap : (out.map fun r => (r.truth, r.prediction)) = (out.map MatchResult.pair).map Prod.swap := by
    rw [List.map_map]; rfl
  refine ⟨_, e, ?_, ?_⟩
  · rw [hswap]
    refine ⟨?_, ?_, ?_⟩
    · have := leg.right; rw [List.map_map]; exact this
    · have := leg.left; rw [List.map_map]; exact this
    · intro m hm
      obtain ⟨x, hx, rfl⟩ := List.mem_map.1 hm
      obtain ⟨h1, h2, h3⟩ := leg.fits x hx
      obtain ⟨a, b, c⟩ := (hfit x.2 x.1 h2 h1).1 h3
      exact ⟨h2, h1, a, b, c⟩
  · intro A hA
    have hB : OneToOne iouOf (pyConfig threshold 1 .hungarian none) (fun k => lift (given (at' pr.rows k)) ((at' pr.rows k).size 2 / 2))
        (fun k => lift (given (at' gt.rows k)) ((at' gt.rows k).size 2 / 2)) pr.rows.length gt.rows.length (A.map Prod.swap) := by
      refine ⟨?_, ?_, ?_⟩
      · have := hA.prNodup; rw [List.map_map]; exact this
      · have := hA.gtNodup; rw [List.map_map]; exact this
      · intro x hx
        obtain ⟨m, hm, rfl⟩ := List.mem_map.1 hx
        obtain ⟨h1, h2, h3, h4, h5⟩ := hA.fits m hm
        exact ⟨h2, h1, (hfit m.1 m.2 h1 h2).2 ⟨h3, h4, h5⟩⟩
    have h := best _ hB
    rw [hworth _ (fun x hx => ⟨(hB.fits x hx).1, (hB.fits x hx).2.1⟩), hworth _ (fun x hx => ⟨(leg.fits x hx).1, (leg.fits x hx).2.1⟩)] at h
    rw [hswap]
    have : (A.map Prod.swap).map Prod.swap = A := by
      rw [List.map_map]; simp
    rwa [this] at h

/-- **C216**: the pairs can always be used to reorder the objects, whatever the heights. -/
theorem matchingIds_association {iouOf : ℕ → Box → Box → ℚ} (h01 : ∀ a b, 0 ≤ iouOf 1 a b ∧ iouOf 1 a b ≤ 1) (threshold : ℚ) {gt pr : Items}
    (hg : gt.headed = true) (hp : pr.headed = true) {gs ps : List Pose.Obj} (h1 : gs.length = gt.rows.length) (h2 : ps.length = pr.rows.length) (n : ℕ) :
    ∃ ids g p, matchingIds iouOf .hungarian threshold gt pr = some ids ∧ Pose.reorder n ids gs ps = some (g, p) ∧ g.length = p.length ∧
      (g.zip p).Perm (Pose.expected (Pose.zeroObj n) ids gs ps) := by
  obtain ⟨out, e, leg, -⟩ := matchingIds_lifted h01 threshold hg hp
  have ha : Pose.Association gs ps (out.map fun r => (r.truth, r.prediction)) := by
    refine ⟨?_, ?_, ?_⟩
    · have := leg.right; rw [List.map_map] at this ⊢; exact this
    · have := leg.left; rw [List.map_map] at this ⊢; exact this
    · intro m hm
      obtain ⟨r, hr, rfl⟩ := List.mem_map.1 hm
      have := leg.fits _ (List.mem_map_of_mem (f := MatchResult.pair) hr)
      rw [h1, h2]
      exact ⟨this.2.1, this.1⟩
  obtain ⟨g, p, h3, h4, h5⟩ := Pose.reorder_spec n ha
  exact ⟨_, g, p, e, h3, h4, h5⟩

/-- Specification: the part of two intervals that they share, and the part that either covers, by centers and lengths. -/
def shared (a la b lb : ℚ) : ℚ := max 0 (min (a + la / 2) (b + lb / 2) - max (a - la / 2) (b - lb / 2))

/-- Specification: of boxes with the same footprint, the IoU is that of their vertical extents. -/
def Vertical (iou : Box → Box → ℚ) : Prop := ∀ (x y l w h za ha zb hb : ℚ), 0 < l → 0 < w → 0 < ha → 0 < hb →
  iou ⟨some x, some y, some za, some l, some w, some ha, some h⟩ ⟨some x, some y, some zb, some l, some w, some hb, some h⟩ =
    shared za ha zb hb / (ha + hb - shared za ha zb hb)

/-- A true box from -1 to 1 metres. -/
def low : Item := ⟨![0, 0, 0], ![1, 1, 2], 0⟩

/-- A predicted box from -1 to 2 metres. -/
def tall : Item := ⟨![0, 0, 1 / 2], ![1, 1, 3], 0⟩

/-- **C216 is violated**: boxes of different heights whose IoU is 2/3 are not matched for a threshold of 1/2: the centers are given where the operation
expects the bottoms. -/
theorem matchingIds_violated {iouOf : ℕ → Box → Box → ℚ} (h01 : ∀ a b, 0 ≤ iouOf 1 a b ∧ iouOf 1 a b ≤ 1) (hv : Vertical (iouOf 1)) :
    iouOf 1 (given tall) (given low) = 2 / 3 ∧ matchingIds iouOf .hungarian (1 / 2) ⟨[low], true⟩ ⟨[tall], true⟩ = some [] := by
  constructor
  · have := hv 0 0 1 1 0 (1 / 2) 3 0 2 (by norm_num) (by norm_num) (by norm_num) (by norm_num)
    simp only [given, tall, low, Matrix.cons_val_zero, Matrix.cons_val_one, Matrix.cons_val]
    rw [this]
    unfold shared
    norm_num
  · obtain ⟨out, e, leg, -⟩ := matchingIds_lifted h01 (1 / 2) (gt := ⟨[low], true⟩) (pr := ⟨[tall], true⟩) rfl rfl
    cases out with
    | nil => exact e
    | cons r out =>
      exfalso
      have h := leg.fits r.pair (by simp)
      obtain ⟨h1, h2, h3⟩ := h
      have e1 : r.pair.1 = 0 := by simpa using h1
      have e2 : r.pair.2 = 0 := by simpa using h2
      rw [e1, e2] at h3
      have h4 := h3.2.2.1
      have := hv 0 0 1 1 0 2 3 1 2 (by norm_num) (by norm_num) (by norm_num) (by norm_num)
      have ea : lift (given (at' [tall] 0)) ((at' [tall] 0).size 2 / 2) = ⟨some 0, some 0, some 2, some 1, some 1, some 3, some 0⟩ := by
        simp [lift, given, at', tall]; norm_num
      have eb : lift (given (at' [low] 0)) ((at' [low] 0).size 2 / 2) = ⟨some 0, some 0, some 1, some 1, some 1, some 2, some 0⟩ := by
        simp [lift, given, at', low]
      unfold iouFn pyConfig at h4
      simp only [Option.map_none, Option.getD_none, ea, eb, this, List.getD_cons_succ, List.getD_cons_zero] at h4
      unfold shared at h4
      norm_num at h4

/-- The hypotheses are met, for instance, by the IoU of the vertical extents. -/
def extentIou (a b : Box) : ℚ :=
  match a.cz, b.cz with
  | some za, some zb => max 0 (min 1 (shared za (a.height.getD 0) zb (b.height.getD 0) /
      (a.height.getD 0 + b.height.getD 0 - shared za (a.height.getD 0) zb (b.height.getD 0))))
  | _, _ => 0

theorem extentIou_met : (∀ a b, 0 ≤ extentIou a b ∧ extentIou a b ≤ 1) ∧ (∀ a b z, extentIou (lift a z) (lift b z) = extentIou a b) ∧ Vertical extentIou := by
  refine ⟨?_, ?_, ?_⟩
  · intro a b
    unfold extentIou
    split
    · exact ⟨le_max_left _ _, max_le (by norm_num) (min_le_left _ _)⟩
    · exact ⟨le_refl _, by norm_num⟩
  · intro a b z
    obtain ⟨ax, ay, az, al, aw, ah, ahd⟩ := a
    obtain ⟨bx, b_y, bz, bl, bw, bh, bhd⟩ := b
    cases az <;> cases bz <;> simp only [extentIou, lift, Option.map_some, Option.map_none]
    have : ∀ p la q lb : ℚ, shared (p + z) la (q + z) lb = shared p la q lb := by
      intro p la q lb
      unfold shared
      congr 1
      rw [show p + z + la / 2 = (p + la / 2) + z by ring, show q + z + lb / 2 = (q + lb / 2) + z by ring,
        show p + z - la / 2 = (p - la / 2) + z by ring, show q + z - lb / 2 = (q - lb / 2) + z by ring, min_add_add_right, max_add_add_right]
      ring
    rw [this]
  · intro x y l w h za ha zb hb _ _ h1 h2
    simp only [extentIou, Option.getD_some]
    have h0 : 0 ≤ shared za ha zb hb := le_max_left _ _
    have ha' : shared za ha zb hb ≤ ha := max_le h1.le (by
      have := min_le_left (za + ha / 2) (zb + hb / 2)
      have := le_max_left (za - ha / 2) (zb - hb / 2)
      linarith)
    have hb' : shared za ha zb hb ≤ hb := max_le h2.le (by
      have := min_le_right (za + ha / 2) (zb + hb / 2)
      have := le_max_right (za - ha / 2) (zb - hb / 2)
      linarith)
    rw [min_eq_right, max_eq_right]
    · exact div_nonneg h0 (by linarith)
    · rw [div_le_one (by linarith)]; linarith

/-- Two boxes of one height are matched. -/
example : ∃ ids, matchingIds (fun _ => extentIou) .hungarian (1 / 2) ⟨[low], true⟩ ⟨[low, low], true⟩ = some ids ∧
    Legal extentIou (1 / 2) [low] [low, low] ids ∧ ∀ A, Legal extentIou (1 / 2) [low] [low, low] A → total extentIou [low] [low, low] A ≤ total extentIou [low] [low, low] ids :=
  matchingIds_partial (iouOf := fun _ => extentIou) extentIou_met.1 extentIou_met.2.1 (1 / 2) (gt := ⟨[low], true⟩) (pr := ⟨[low, low], true⟩) rfl rfl 2
    (by simp [low])

/-- **C216 is violated**: boxes without headings raise, and so does the matcher that takes predictions in the order of their scores, for every input. -/
theorem refused_violated (iouOf : ℕ → Box → Box → ℚ) (threshold : ℚ) (gt pr : Items) :
    (gt.headed = false ∨ pr.headed = false → ∀ kind, matchingIds iouOf kind threshold gt pr = none) ∧
    matchingIds iouOf .scoreFirst threshold gt pr = none := by
  constructor
  · intro h kind
    unfold matchingIds
    rcases h with h | h
    · have : boxToTensor gt = none := by unfold boxToTensor; rw [if_neg (by simp [h])]
      rw [this]; rfl
    · have : boxToTensor pr = none := by unfold boxToTensor; rw [if_neg (by simp [h])]
      rw [this]
      cases boxToTensor gt <;> rfl
  · unfold matchingIds
    cases hg : boxToTensor gt with
    | none => rfl
    | some g =>
      cases hp : boxToTensor pr with
      | none => rfl
      | some p =>
        simp only [Option.bind_eq_bind, Option.bind_some]
        rw [pyMatch_eq iouOf _ threshold hg hp]
        have hm : ∀ a b, matchBoxes iouOf (pyConfig threshold 1 .scoreFirst none) a b = none := by
          intro a b
          obtain ⟨ps, e1, -⟩ := validIndex_spec (Or.inl rfl : (1 : ℕ) = 1 ∨ (1 : ℕ) = 2 ∨ (1 : ℕ) = 3) a
          obtain ⟨gs, e2, -⟩ := validIndex_spec (Or.inl rfl : (1 : ℕ) = 1 ∨ (1 : ℕ) = 2 ∨ (1 : ℕ) = 3) b
          unfold matchBoxes
          obtain ⟨m, em, -⟩ := create_frame (iouOf := iouOf) (c := pyConfig threshold 1 .scoreFirst none) rfl (by simp [pyConfig]) a b ps gs
          rw [em]
          simp only [Option.bind_eq_bind, Option.bind_some]
          have : (pyConfig threshold 1 Kind.scoreFirst none).boxType = 1 := rfl
          rw [this, e1, e2]
          rfl
        have : matchOp iouOf (pyConfig threshold 1 .scoreFirst none) ⟨[1, pr.rows.length, 7], p.data⟩ ⟨[1, gt.rows.length, 7], g.data⟩ = none := by
          unfold matchOp
          have hfit : dimensionFits (pyConfig threshold 1 Kind.scoreFirst none).boxType 7 = true := rfl
          simp only [hfit, and_self, if_true, parse_spec (Or.inr (Or.inr rfl) : (7 : ℕ) = 4 ∨ (7 : ℕ) = 5 ∨ (7 : ℕ) = 7), Option.bind_eq_bind,
            Option.bind_some]
          simp [hm]
        rw [this]
        rfl

/-- **C216**: the factory makes the matcher of the configuration, and refuses others. -/
theorem createMatcher_spec (c : MatcherConfig) : (∀ k t, createMatcher c = some (.cpp k t) ↔ c = .cpp k t) ∧
    (∀ d, createMatcher c = some (.meanError d) ↔ c = .meanError d) ∧ (createMatcher c = none ↔ c = .other) := by
  cases c <;> simp [createMatcher]

end Verif.BoxMatcher
