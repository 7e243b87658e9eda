import Mathlib.Logic.Equiv.List
import Verif.Props.CloudsFrame
import Verif.Model.SemsegTutorial

/-! Properties of the code of tutorial/tutorial_3d_semseg.ipynb (C198, C199, C200). -/

namespace Verif.SemsegTutorial

open Verif.Clouds Verif.ListM

theorem mapM_isSome_iff {α β : Type} {f : α → Option β} (l : List α) : (l.mapM f).isSome ↔ ∀ a ∈ l, (f a).isSome := by
  constructor
  · intro h a ha
    obtain ⟨r, hr⟩ := Option.isSome_iff_exists.1 h
    have hf := mapM_forall₂ hr
    obtain ⟨i, hi, e⟩ := List.getElem_of_mem ha
    have := (List.forall₂_iff_get.1 hf).2 i hi (by rw [← hf.length_eq]; exact hi)
    simp only [List.get_eq_getElem, e] at this
    rw [this]; rfl
  · intro h
    obtain ⟨r, hr⟩ := mapM_isSome fun a ha => Option.isSome_iff_exists.1 (h a ha)
    rw [hr]; rfl

/-! ### C198: labels of points -/

/-- Specification: the labels of the points of a lidar: all channels of the same pixels, or zeros if it has no labels. -/
def IsLabels (m : Raw ℝ) (g : Option (Raw ℤ)) (labels : List (List ℤ)) : Prop :=
  match g with
  | some g => IsProjections m g labels
  | none => ∃ pix, PixelsInOrder m pix ∧ labels = pix.map fun _ => [0, 0]

theorem labelsOf_some {s : Parsed} {index : ℕ} {c : Calibration} {labels : List (List ℤ)} (h : labelsOf s index c = some labels) :
    ∃ m x, (s.ranges c.name).bind (fun l => l[index]?) = some m ∧ reshape m = some x ∧
      ((s.segs c.name = none ∧ labels = List.replicate (hits x).length [0, 0]) ∨
       ∃ g y, (s.segs c.name).bind (fun l => l[index]?) = some g ∧ reshape g = some y ∧ gatherImage y (hits x) = some labels) := by
  unfold labelsOf at h
  simp only [Option.bind_eq_bind, Option.bind_eq_some_iff] at h
  obtain ⟨l, hl, ri, hri, x, hx, h⟩ := h
  refine ⟨ri, x, by simp [hl, hri], hx, ?_⟩
  cases hs : s.segs c.name with
  | none =>
    rw [hs] at h
    simp only [Option.pure_def, Option.some.injEq] at h
    exact Or.inl ⟨rfl, h.symm⟩
  | some sl =>
    rw [hs] at h
    simp only [Option.bind_eq_some_iff] at h
    obtain ⟨g, hg, y, hy, h⟩ := h
    exact Or.inr ⟨g, y, by simp [hg], hy, h⟩

/-- **C198**: the labels of the points of a frame, lidar by lidar as the points, point by point: each has the label of the pixel of its point, and
zeros if its lidar has no labels. -/
theorem toLabels_spec {f : Frame} {s : Parsed} {index : ℕ} {keep : Bool} {clouds : List (List (List ℝ))} {projs : List (List (List ℤ))}
    {labels : List (List (List ℤ))} (hn : (f.calibrations.map Calibration.name).Nodup) (hc : toCloud f s index keep = some (clouds, projs))
    (h : toLabels f s index = some labels) :
    List.Forall₂ (fun points ls => ls.length = points.length) clouds labels ∧
    List.Forall₂ (fun c ls => ∃ m, (s.ranges c.name).bind (fun l => l[index]?) = some m ∧
      IsLabels m ((s.segs c.name).bind fun l => l[index]?) ls) (f.calibrations.insertionSort fun a b => a.name ≤ b.name) labels := by
  obtain ⟨rs, h1, rfl, rfl⟩ := computed hn hc
  have h2 := mapM_forall₂ h
  have hlen : rs.length = labels.length := by rw [← h1.length_eq, h2.length_eq]
  have key : ∀ i (hi : i < rs.length) (hj : i < labels.length) (hk : i < (f.calibrations.insertionSort fun a b => a.name ≤ b.name).length),
      labels[i].length = rs[i].1.length ∧ ∃ m, (s.ranges (f.calibrations.insertionSort fun a b => a.name ≤ b.name)[i].name).bind (fun l => l[index]?) = some m ∧
      IsLabels m ((s.segs (f.calibrations.insertionSort fun a b => a.name ≤ b.name)[i].name).bind fun l => l[index]?) labels[i] := by
    intro i hi hj hk
    have a := (List.forall₂_iff_get.1 h1).2 i hk hi
    have b := (List.forall₂_iff_get.1 h2).2 i hk hj
    simp only [List.get_eq_getElem] at a b
    obtain ⟨k⟩ := a
    obtain ⟨m, x, hm, hx, hl⟩ := labelsOf_some b
    have e1 : m = k.ri := by have := k.hri; rw [hm] at this; exact Option.some.inj this
    subst e1
    have e2 : x = k.x := by have := k.hx; rw [hx] at this; exact Option.some.inj this
    subst e2
    have hc0 : k.x.c ≠ 0 := (cartesian_shape k.hpts).1
    have hrl : rs[i].1.length = (hits k.x).length := by
      have := (mapM_forall₂ k.hrows).length_eq
      exact this.symm
    rcases hl with ⟨hs, hl⟩ | ⟨g, y, hg, hy, hl⟩
    · refine ⟨by rw [hl, hrl]; simp, k.ri, hm, ?_⟩
      rw [hs]
      exact ⟨hits k.x, pixels_hits hx hc0, by rw [hl]; simp⟩
    · refine ⟨by rw [hrl, ← (mapM_forall₂ hl).length_eq], k.ri, hm, ?_⟩
      rw [hg]
      exact gather_projections hx hc0 hy hl
  constructor
  · rw [List.forall₂_map_left_iff, List.forall₂_iff_get]
    refine ⟨hlen, fun i hi hj => ?_⟩
    have hk : i < (f.calibrations.insertionSort fun a b => a.name ≤ b.name).length := by rw [h1.length_eq]; exact hi
    exact (key i hi hj hk).1
  · rw [List.forall₂_iff_get]
    refine ⟨h2.length_eq, fun i hk hj => ?_⟩
    exact (key i (by rw [hlen]; exact hj) hj hk).2

/-- **C198**: there are labels if the label images are as large as the range images. -/
theorem toLabels_total_partial {f : Frame} {s : Parsed} {index : ℕ}
    (h : ∀ c ∈ f.calibrations, ∃ m x, (s.ranges c.name).bind (fun l => l[index]?) = some m ∧ reshape m = some x ∧
      (s.segs c.name = none ∨ ∃ g y, (s.segs c.name).bind (fun l => l[index]?) = some g ∧ reshape g = some y ∧ y.h = x.h ∧ y.w = x.w)) :
    (toLabels f s index).isSome := by
  unfold toLabels
  rw [mapM_isSome_iff]
  intro c hc
  obtain ⟨m, x, hm, hx, hs⟩ := h c ((List.mem_insertionSort _).1 hc)
  obtain ⟨l, hl, hm⟩ := Option.bind_eq_some_iff.1 hm
  unfold labelsOf
  simp only [hl, hm, hx, Option.bind_eq_bind, Option.bind_some]
  rcases hs with hs | ⟨g, y, hg, hy, h1, h2⟩
  · rw [hs]; rfl
  · obtain ⟨sl, hsl, hg⟩ := Option.bind_eq_some_iff.1 hg
    rw [hsl]
    simp only [hg, hy, Option.bind_some]
    unfold gatherImage
    rw [mapM_isSome_iff]
    intro p hp
    have := mem_hits_lt hp
    rw [if_pos (by omega)]
    rfl

/-- **C198 is violated**: points of second returns have no labels, not even zeros, if only the first return of a lidar is labelled. -/
theorem second_violated {f : Frame} {s : Parsed} {c : Calibration} {g : Raw ℤ} (hc : c ∈ f.calibrations) (hs : s.segs c.name = some [g]) :
    toLabels f s 1 = none := by
  unfold toLabels
  by_contra hne
  have hsome := Option.isSome_iff_ne_none.2 hne
  rw [mapM_isSome_iff] at hsome
  have := hsome c ((List.mem_insertionSort _).2 hc)
  unfold labelsOf at this
  rw [Option.isSome_iff_exists] at this
  obtain ⟨ls, this⟩ := this
  simp only [Option.bind_eq_bind, Option.bind_eq_some_iff, hs] at this
  obtain ⟨_, _, _, _, _, _, _, h, _⟩ := this
  simp at h

/-- A frame with two returns, of which the first is labelled. -/
def halfLabelled : Frame :=
  ⟨[], [{ name := 1, ret1 := { range := [1], projection := [1], pose := [1], seg := [1] }, ret2 := { range := [1], projection := [1] } }],
    [{ name := 1, extrinsic := [] }]⟩

/-- The hypotheses of `second_violated` are met by a frame that can be parsed. -/
example : ∃ (D : Codec) (s : Parsed) (c : Calibration) (g : Raw ℤ), parse D halfLabelled = some s ∧ c ∈ halfLabelled.calibrations ∧
    s.segs c.name = some [g] := by
  refine ⟨⟨fun _ => some ⟨[1], [1, 1, 1]⟩, fun _ => some ⟨[1], [1, 1, 1]⟩⟩, ?_⟩
  refine ⟨_, _, ⟨[1], [1, 1, 1]⟩, by
    simp only [parse, parseLasers, halfLabelled, parseFirst, parseSecond, append, put]
    simp
    rfl, by simp [halfLabelled]; rfl, ?_⟩
  simp

/-! ### C199: arrays and the dummy submission -/

/-- What is unpacked is what was packed. -/
def Lawful {α : Type} (P : Packing α) : Prop := ∀ m, P.unpack (P.pack m) = some m

/-- **C199**: an array comes back with its shape, and with the elements that the fields make of its elements. -/
theorem compress_round {α : Type} {P : Packing α} (hP : Lawful P) {a : Array α} {b : Bytes} (h : compress P a = some b) :
    ∃ a', decompress P b = some a' ∧ a'.shape = a.shape ∧ List.Forall₂ (fun x y => P.field x = some y) a.data a'.data := by
  unfold compress at h
  simp only [Option.bind_eq_bind, Option.bind_eq_some_iff, Option.pure_def, Option.some.injEq] at h
  obtain ⟨d, hd, rfl⟩ := h
  have hf := mapM_forall₂ hd
  have hlen : d.length = a.shape.prod := by rw [← hf.length_eq]; exact a.whole
  refine ⟨⟨a.shape, d, hlen⟩, ?_, rfl, hf⟩
  unfold decompress
  rw [hP]
  simp [hlen]

theorem Array.ext' {α : Type} {a b : Array α} (h1 : a.shape = b.shape) (h2 : a.data = b.data) : a = b := by
  cases a; cases b; simp_all

/-- **C199**: arrays of 32-bit integers come back as they were; others are refused. -/
theorem compress_int {P : Packing ℤ} (hP : Lawful P) (hf : P.field = int32) (a : Array ℤ) :
    (∀ b, compress P a = some b → decompress P b = some a) ∧ ((compress P a).isSome ↔ ∀ z ∈ a.data, -2 ^ 31 ≤ z ∧ z < 2 ^ 31) := by
  constructor
  · intro b hb
    obtain ⟨a', h1, h2, h3⟩ := compress_round hP hb
    rw [h1]
    congr 1
    apply Array.ext' h2
    symm
    rw [hf] at h3
    clear h1 h2 hb
    revert h3
    generalize a.data = l
    generalize a'.data = l'
    intro h3
    induction h3 with
    | nil => rfl
    | cons h _ ih =>
      unfold int32 at h
      split_ifs at h
      rw [ih, Option.some.inj h]
  · unfold compress
    have : (do let d ← a.data.mapM P.field; pure (P.pack ⟨d, a.shape⟩) : Option Bytes).isSome = (a.data.mapM P.field).isSome := by
      cases a.data.mapM P.field <;> rfl
    rw [this, mapM_isSome_iff, hf]
    constructor
    · intro h z hz
      have := h z hz
      unfold int32 at this
      split_ifs at this with hh
      · exact hh
      · simp at this
    · intro h z hz
      unfold int32
      rw [if_pos (h z hz)]; rfl

/-- **C199**: real numbers come back rounded, and as they were if rounding does nothing to them. -/
theorem compress_float {P : Packing ℝ} (hP : Lawful P) {rnd : ℝ → ℝ} (hf : P.field = fun x => some (rnd x)) (a : Array ℝ) :
    ∃ b a', compress P a = some b ∧ decompress P b = some a' ∧ a'.shape = a.shape ∧ a'.data = a.data.map rnd ∧
      ((∀ x ∈ a.data, rnd x = x) → a' = a) := by
  have hsome : (compress P a).isSome := by
    unfold compress
    have : (do let d ← a.data.mapM P.field; pure (P.pack ⟨d, a.shape⟩) : Option Bytes).isSome = (a.data.mapM P.field).isSome := by
      cases a.data.mapM P.field <;> rfl
    rw [this, mapM_isSome_iff, hf]
    intro _ _; rfl
  obtain ⟨b, hb⟩ := Option.isSome_iff_exists.1 hsome
  obtain ⟨a', h1, h2, h3⟩ := compress_round hP hb
  have hd : a'.data = a.data.map rnd := by
    rw [hf] at h3
    clear h1 h2 hb
    revert h3
    generalize a.data = l
    generalize a'.data = l'
    intro h3
    induction h3 with
    | nil => rfl
    | cons h _ ih => rw [ih, List.map_cons, Option.some.inj h]
  refine ⟨b, a', hb, h1, h2, hd, fun hx => Array.ext' h2 ?_⟩
  rw [hd]
  conv_rhs => rw [← List.map_id a.data]
  exact List.map_congr_left fun x hxm => hx x hxm

/-- **C199**: the indices are columns and rows of the pixels that have points, in the order of the points; a pixel outside of the grid is an error. -/
theorem indexing_spec {s : Parsed} {index : ℕ} {out : List (ℕ × ℕ)} (h : indexing s index = some out) :
    ∃ m x, (s.ranges 1).bind (fun l => l[index]?) = some m ∧ reshape m = some x ∧ out = (hits x).map Prod.swap ∧
      ∀ p ∈ out, p.1 < 2650 ∧ p.2 < 64 := by
  unfold indexing at h
  simp only [Option.bind_eq_bind, Option.bind_eq_some_iff] at h
  obtain ⟨l, hl, ri, hri, x, hx, h⟩ := h
  have hf := mapM_forall₂ h
  have key : ∀ a b, (if a.1 < rows ∧ a.2 < cols then some (a.2, a.1) else none) = some b → b = Prod.swap a ∧ b.1 < 2650 ∧ b.2 < 64 := by
    intro a b hab
    split_ifs at hab with hh
    have := Option.some.inj hab
    rw [← this]
    exact ⟨rfl, hh.2, hh.1⟩
  refine ⟨ri, x, by simp [hl, hri], hx, ?_, ?_⟩
  · clear h hx
    revert hf
    generalize hits x = l
    intro hf
    induction hf with
    | nil => rfl
    | cons hab _ ih => rw [List.map_cons, ← (key _ _ hab).1, ← ih]
  · intro p hp
    obtain ⟨i, hi, e⟩ := List.getElem_of_mem hp
    have := (List.forall₂_iff_get.1 hf).2 i (by rw [hf.length_eq]; exact hi) hi
    simp only [List.get_eq_getElem] at this
    rw [← e]
    exact (key _ _ this).2

theorem offset_inj {a b c d : ℕ} (ha : a < cols) (hc : c < cols) (h : (b * cols + a) * 2 + 1 = (d * cols + c) * 2 + 1) : a = c ∧ b = d := by
  have e : b * cols + a = d * cols + c := by omega
  have hpos : 0 < cols := by decide
  have h1 : a = c := by
    have := congrArg (· % cols) e
    simpa [Nat.add_mod, Nat.mul_mod_left, Nat.mod_eq_of_lt ha, Nat.mod_eq_of_lt hc] using this
  refine ⟨h1, ?_⟩
  subst h1
  have : b * cols = d * cols := by omega
  exact Nat.eq_of_mul_eq_mul_right hpos this

/-- **C199**: the picture has the class at the points, in the second channel, and zeros elsewhere. -/
theorem paint_at (points : List (ℕ × ℕ)) (hp : ∀ p ∈ points, p.1 < cols ∧ p.2 < rows) (cls : ℤ) (r c k : ℕ) (hr : r < rows) (hc : c < cols) (hk : k < 2) :
    (paint points cls)[(r * cols + c) * 2 + k]? = some (if k = 1 ∧ (c, r) ∈ points then cls else 0) := by
  have hlt : (r * cols + c) * 2 + k < rows * cols * 2 := offset_lt hr hc hk
  have key : ∀ (l : List (ℕ × ℕ)) (d : List ℤ), (∀ p ∈ l, p.1 < cols ∧ p.2 < rows) → d.length = rows * cols * 2 →
      (l.foldl (fun d p => d.set ((p.2 * cols + p.1) * 2 + 1) cls) d)[(r * cols + c) * 2 + k]? =
        if k = 1 ∧ (c, r) ∈ l then some cls else d[(r * cols + c) * 2 + k]? := by
    intro l
    induction l with
    | nil => intro d _ _; simp
    | cons p l ih =>
      intro d hl hd
      rw [List.foldl_cons, ih _ (fun q hq => hl q (by simp [hq])) (by simp [hd]), List.getElem?_set]
      have hp := hl p (by simp)
      by_cases h1 : k = 1 ∧ (c, r) ∈ l
      · rw [if_pos h1, if_pos ⟨h1.1, by simp [h1.2]⟩]
      · rw [if_neg h1]
        by_cases h2 : (p.2 * cols + p.1) * 2 + 1 = (r * cols + c) * 2 + k
        · have hk1 : k = 1 := by omega
          subst hk1
          obtain ⟨e1, e2⟩ := offset_inj hp.1 hc h2
          have : p = (c, r) := Prod.ext e1 e2
          rw [if_pos h2, if_pos (by rw [hd]; omega), if_pos ⟨rfl, by simp [this]⟩]
        · rw [if_neg h2, if_neg]
          rintro ⟨hk1, hm⟩
          rcases List.mem_cons.1 hm with e | hm
          · apply h2; subst hk1; rw [← e]
          · exact h1 ⟨hk1, hm⟩
  unfold paint
  rw [key points _ hp (by simp), List.getElem?_replicate, if_pos hlt]
  split_ifs <;> rfl

/-- Specification: the labels in a submission: the class where the range image has a point, nothing elsewhere. -/
def IsDummy (m : Raw ℝ) (cls : ℤ) (a : Array ℤ) : Prop :=
  a.shape = [64, 2650, 2] ∧ ∀ r c k : ℕ, r < 64 → c < 2650 → k < 2 → ∃ v, a.data[(r * 2650 + c) * 2 + k]? = some v ∧
    (k = 1 → Pixel m (r, c) → v = cls) ∧ (k = 0 ∨ ¬ Pixel m (r, c) → v = 0)

theorem painted_spec {s : Parsed} {index : ℕ} {out : List (ℕ × ℕ)} (h : indexing s index = some out) (cls : ℤ) :
    ∃ m x, (s.ranges 1).bind (fun l => l[index]?) = some m ∧ reshape m = some x ∧ (x.c ≠ 0 → IsDummy m cls (painted out cls)) := by
  obtain ⟨m, x, h1, h2, h3, h4⟩ := indexing_spec h
  refine ⟨m, x, h1, h2, fun h0 => ⟨rfl, ?_⟩⟩
  intro r c k hr hc hk
  have hpix : (c, r) ∈ out ↔ Pixel m (r, c) := by
    rw [← (pixels_hits h2 h0).1, h3]
    constructor
    · intro hm
      obtain ⟨q, hq, e⟩ := List.mem_map.1 hm
      have : q = (r, c) := by rw [← Prod.swap_swap q, e]; rfl
      rw [← this]; exact hq
    · intro hm
      exact List.mem_map.2 ⟨_, hm, rfl⟩
  refine ⟨_, paint_at out (fun p hp => h4 p hp) cls r c k hr hc hk, ?_, ?_⟩
  · intro hk1 hp
    rw [if_pos ⟨hk1, hpix.2 hp⟩]
  · rintro (hk0 | hp)
    · rw [if_neg (by omega)]
    · rw [if_neg (fun hh => hp (hpix.1 hh.2))]

/-- **C199**: the submission of a frame names it and its TOP lidar, and what is decompressed from it has the class at all points of both returns and
nothing elsewhere. -/
theorem dummy_spec {D : Codec} {P : Packing ℤ} (hP : Lawful P) (hf : P.field = int32) {f : Labelled} {cls : ℤ} {g : SegFrame}
    (h : dummy D P f cls = some g) : g.context = f.context ∧ g.timestamp = f.timestamp ∧
    ∃ s l m1 m2 x1 x2 a1 a2, parse D f.frame = some s ∧ g.lasers = [l] ∧ l.name = 1 ∧ s.ranges 1 ≠ none ∧
      (s.ranges 1).bind (fun l => l[0]?) = some m1 ∧ (s.ranges 1).bind (fun l => l[1]?) = some m2 ∧
      decompress P l.ret1.seg = some a1 ∧ decompress P l.ret2.seg = some a2 ∧ reshape m1 = some x1 ∧ reshape m2 = some x2 ∧
      (x1.c ≠ 0 → IsDummy m1 cls a1) ∧ (x2.c ≠ 0 → IsDummy m2 cls a2) := by
  unfold dummy at h
  simp only [Option.bind_eq_bind, Option.bind_eq_some_iff, Option.pure_def, Option.some.injEq] at h
  obtain ⟨s, hs, p1, hp1, p2, hp2, b1, hb1, b2, hb2, rfl⟩ := h
  obtain ⟨m1, x1, h1, h2, h3⟩ := painted_spec hp1 cls
  obtain ⟨m2, x2, h4, h5, h6⟩ := painted_spec hp2 cls
  refine ⟨rfl, rfl, s, _, m1, m2, x1, x2, _, _, hs, rfl, rfl, ?_, h1, h4, (compress_int hP hf _).1 _ hb1, (compress_int hP hf _).1 _ hb2, h2, h5, h3, h6⟩
  intro hn
  rw [hn] at h1
  simp at h1

/-- A packing as it is meant exists. -/
example : ∃ P : Packing ℤ, Lawful P ∧ P.field = int32 := by
  refine ⟨⟨fun m => List.replicate (Encodable.encode (m.data, m.dims)) 0,
    fun b => (Encodable.decode (α := List ℤ × List ℕ) b.length).map fun p => ⟨p.1, p.2⟩, int32⟩, ?_, rfl⟩
  intro m
  simp only [List.length_replicate, Encodable.encodek]
  rfl

/-- **C199**: there is a submission for every frame whose TOP lidar has two returns that fit into the grid. -/
theorem dummy_total {D : Codec} {P : Packing ℤ} (hf : P.field = int32) {f : Labelled} {cls : ℤ} (hcls : -2 ^ 31 ≤ cls ∧ cls < 2 ^ 31) {s : Parsed}
    (hs : parse D f.frame = some s) {m1 m2 : Raw ℝ} {x1 x2 : Image ℝ} (h1 : s.ranges 1 = some [m1, m2]) (hx1 : reshape m1 = some x1)
    (hx2 : reshape m2 = some x2) (hs1 : x1.h ≤ 64 ∧ x1.w ≤ 2650) (hs2 : x2.h ≤ 64 ∧ x2.w ≤ 2650) : (dummy D P f cls).isSome := by
  have idx : ∀ (index : ℕ) (m : Raw ℝ) (x : Image ℝ), [m1, m2][index]? = some m → reshape m = some x → x.h ≤ 64 ∧ x.w ≤ 2650 →
      ∃ out, indexing s index = some out := by
    intro index m x hm hx hsz
    rw [← Option.isSome_iff_exists]
    unfold indexing
    simp only [h1, hm, hx, Option.bind_eq_bind, Option.bind_some]
    rw [mapM_isSome_iff]
    intro p hp
    have := mem_hits_lt hp
    rw [if_pos ⟨by unfold rows; omega, by unfold cols; omega⟩]; rfl
  have comp : ∀ out : List (ℕ × ℕ), ∃ b, compress P (painted out cls) = some b := by
    intro out
    rw [← Option.isSome_iff_exists]
    unfold compress
    have : (do let d ← (painted out cls).data.mapM P.field; pure (P.pack ⟨d, (painted out cls).shape⟩) : Option Bytes).isSome =
        ((painted out cls).data.mapM P.field).isSome := by
      cases (painted out cls).data.mapM P.field <;> rfl
    rw [this, mapM_isSome_iff, hf]
    have key : ∀ (l : List (ℕ × ℕ)) (d : List ℤ), (∀ z ∈ d, z = 0 ∨ z = cls) →
        ∀ z ∈ l.foldl (fun d p => d.set ((p.2 * cols + p.1) * 2 + 1) cls) d, z = 0 ∨ z = cls := by
      intro l
      induction l with
      | nil => intro d hd; exact hd
      | cons p l ih =>
        intro d hd
        rw [List.foldl_cons]
        apply ih
        intro z hz
        rcases List.mem_or_eq_of_mem_set hz with hz | hz
        · exact hd z hz
        · exact Or.inr hz
    intro z hz
    have := key out (List.replicate (rows * cols * 2) 0) (fun z hz => Or.inl (List.eq_of_mem_replicate hz)) z hz
    unfold int32
    rw [if_pos (by rcases this with rfl | rfl; · norm_num
                   · exact hcls)]
    rfl
  obtain ⟨o1, ho1⟩ := idx 0 m1 x1 rfl hx1 hs1
  obtain ⟨o2, ho2⟩ := idx 1 m2 x2 rfl hx2 hs2
  obtain ⟨b1, hb1⟩ := comp o1
  obtain ⟨b2, hb2⟩ := comp o2
  unfold dummy
  simp only [hs, ho1, ho2, hb1, hb2, Option.bind_eq_bind, Option.bind_some, Option.pure_def, Option.isSome_some]

/-! ### C200: which frames are submitted -/

/-- **C200, what holds**: the submission for the validation set has, in order, the frames whose first lidar has labels. -/
theorem validation_partial {D : Codec} {P : Packing ℤ} : ∀ {fs : List Labelled} {gs : List SegFrame}, validation D P fs = some gs →
    List.Forall₂ (fun f g => dummy D P f = some g) (fs.filter fun f => (isLabelled f).getD false) gs ∧ ∀ f ∈ fs, f.frame.lasers ≠ [] := by
  intro fs
  induction fs with
  | nil =>
    intro gs h
    simp only [validation, Option.some.injEq] at h
    subst h
    exact ⟨by simp, by simp⟩
  | cons f fs ih =>
    intro gs h
    unfold validation at h
    simp only [Option.bind_eq_bind, Option.bind_eq_some_iff] at h
    obtain ⟨b, hb, h⟩ := h
    have hne : f.frame.lasers ≠ [] := by
      intro e
      unfold isLabelled at hb
      rw [e] at hb
      simp at hb
    rw [List.filter_cons, hb]
    cases b with
    | false =>
      simp only [Bool.false_eq_true, if_false] at h
      have := ih h
      refine ⟨by simpa using this.1, ?_⟩
      intro g hg
      rcases List.mem_cons.1 hg with rfl | hg
      · exact hne
      · exact this.2 g hg
    | true =>
      simp only [if_true, Option.bind_eq_some_iff, Option.pure_def, Option.some.injEq] at h
      obtain ⟨g, hg, gs', hgs, rfl⟩ := h
      have := ih hgs
      refine ⟨by simpa using ⟨hg, this.1⟩, ?_⟩
      intro g' hg'
      rcases List.mem_cons.1 hg' with rfl | hg'
      · exact hne
      · exact this.2 g' hg'

/-- A frame whose TOP lidar, the only one that is labelled, comes second. -/
def topSecond : Labelled := ⟨"a", 0, ⟨[], [{ name := 2 }, { name := 1, ret1 := { seg := [1] } }], []⟩⟩

/-- **C200 is violated**: a labelled frame is left out if TOP is not the first lidar of the frame. -/
theorem validation_violated (D : Codec) (P : Packing ℤ) : (∃ l ∈ topSecond.frame.lasers, l.name = 1 ∧ l.ret1.seg ≠ []) ∧
    validation D P [topSecond] = some [] := by
  refine ⟨⟨_, List.mem_cons_of_mem _ (List.mem_cons_self ..), rfl, by simp⟩, ?_⟩
  simp [validation, isLabelled, topSecond]

/-- **C200 is violated**: the submission for the testing set has no frames, whatever frames and lines there are: a tuple is looked for among lists. -/
theorem testing_violated (D : Codec) (P : Packing ℤ) (rstrip : String → String) (split : String → List String) (lines : List String) :
    ∀ fs : List Labelled, testing D P rstrip split lines fs = some [] := by
  intro fs
  induction fs with
  | nil => rfl
  | cons f fs ih =>
    unfold testing
    rw [if_neg, ih]
    intro hm
    obtain ⟨l, _, e⟩ := List.mem_map.1 hm
    simp [entry] at e

end Verif.SemsegTutorial
