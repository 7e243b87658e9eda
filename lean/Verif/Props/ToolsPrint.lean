import Verif.Props.ToolsLabels

/-!
Property C141: what the detection programs print.
-/

namespace Verif.Tools

open Verif.Detection Verif.Curve Verif.Breakdown

/-! ### Specification -/

/-- The promises of a matcher for a frame: its functions are defined, accuracies and affinities are in `[0, 1]`, and any
selection is matched consistently. -/
structure MatcherOk (E : Env) (x : List Rec × List Rec) : Prop where
  iou : ∀ a b, a < x.1.length → b < x.2.length → ∃ v, E.iou x.1 x.2 a b = some v
  aff : ∀ a b, a < x.1.length → b < x.2.length → ∃ v, E.aff x.1 x.2 a b = some v
  affUnit : ∀ a b v, E.aff x.1 x.2 a b = some v → 0 ≤ v ∧ v ≤ 1
  ha : ∀ a b, 0 ≤ E.ha x.1 x.2 a b ∧ E.ha x.1 x.2 a b ≤ 1
  doMatch : ∀ ps gs : List Nat, (∀ a ∈ ps, a < x.1.length) → (∀ b ∈ gs, b < x.2.length) →
    ∃ pm gm, E.doMatch x.1 x.2 ps gs = some (pm, gm) ∧ pm.length = ps.length ∧ gm.length = gs.length ∧
      ∀ i j : Nat, pm[i]? = some (some j) ↔ gm[j]? = some (some i)

/-- An object that every breakdown can place: a known type and, if cameras are given, one of the five. -/
def Placeable (o : Rec) : Prop :=
  o.type ≤ 4 ∧ (∀ c, o.camera = some c → 1 ≤ c ∧ c ≤ 5) ∧
    ∀ s, o.mostVisible = some s → s ∉ ["UNKNOWN", "REAR_LEFT", "REAR", "REAR_RIGHT"]

/-- The breakdowns in the order in which they are printed: of each generator with `n` shards, shard by shard, the
levels. -/
def table (gs : List (Nat × Nat)) (levels : List Nat) : List Measure.Breakdown :=
  gs.flatMap fun g => (List.range g.2).flatMap fun s => levels.map fun l => ⟨g.1, s, l⟩

/-- The name of a breakdown: that of the shard and that of the level. -/
def label (b : Measure.Breakdown) : String := (shardName b.generator b.shard).getD "" ++ "_" ++ levelName b.level

/-! ### Proofs -/

theorem parse_five {s : String} {c : Nat} (h : s ∉ ["UNKNOWN", "REAR_LEFT", "REAR", "REAR_RIGHT"])
    (hc : parseCamera s = some c) : 1 ≤ c ∧ c ≤ 5 := by
  unfold parseCamera at hc
  split_ifs at hc <;> first | (cases hc; omega) | (simp_all)

theorem sound_all (o : Rec) (id : Nat) (g : Gen Obj) (hg : create id = some g) (d : Bool) (ht : o.type ≤ 4)
    (hc : id = 10 → Placeable o) : Sound g d o.core := by
  refine create_sound id g hg d o.core ht fun h10 => ?_
  obtain ⟨-, h2, h3⟩ := hc h10
  exact ⟨h2, fun s c hs hp => parse_five (h3 s hs) hp⟩

theorem shard_all (o : Rec) (id : Nat) (g : Gen Obj) (hg : create id = some g) (ht : o.type ≤ 4)
    (hc : id = 10 → Placeable o) : ∃ s, g.shard o.core = some s := by
  have := sound_all o id g hg false ht hc
  unfold Sound shardsOf at this
  simp only [Bool.false_eq_true, false_and, if_false] at this
  obtain ⟨q, h, -⟩ := this
  cases hs : g.shard o.core with
  | none => rw [hs] at h; cases h
  | some s => exact ⟨s, rfl⟩

theorem config_cutoffs (n : Breakdown.Config) (b : Bool) : (config n b).cutoffs ≠ [] := by
  show cutoffs ≠ []
  unfold cutoffs
  simp

theorem used (n : Breakdown.Config) (b : Bool) (xs : List (Frame Obj String)) :
    usedCutoffs (config n b) 0 xs = some (config n b).cutoffs := by
  unfold usedCutoffs
  rw [if_neg]
  rw [List.isEmpty_iff]
  exact config_cutoffs n b

theorem mem_generators {n : Breakdown.Config} {b : Bool} {g : Nat × Gen Obj} (h : g ∈ (config n b).generators) :
    g.1 ∈ n.generators ∧ create g.1 = some g.2 := by
  unfold config at h
  simp only [List.mem_filterMap, Option.map_eq_some_iff] at h
  obtain ⟨i, hi, g', hg', rfl⟩ := h
  exact ⟨hi, hg'⟩

theorem frame_usable (E : Env) {n : Breakdown.Config} {b : Bool} (hl : n.levels.length = (config n b).generators.length)
    {x : List Rec × List Rec} (hm : MatcherOk E x) (ht : ∀ o, o ∈ x.1 ∨ o ∈ x.2 → o.type ≤ 4)
    (hc : 10 ∈ n.generators → ∀ o, o ∈ x.1 ∨ o ∈ x.2 → Placeable o) : FrameUsable (config n b) (E.detFrame x) := by
  have item : ∀ {l : List Rec} {p : Item Obj String}, p ∈ l.map detItem → ∃ o ∈ l, p.core = o.core := by
    intro l p hp
    obtain ⟨o, ho, rfl⟩ := List.mem_map.mp hp
    exact ⟨o, ho, rfl⟩
  refine ⟨hl, config_cutoffs n b, ?_, ?_, ?_, ?_, ?_, ?_⟩
  · intro g hg p hp
    obtain ⟨h1, h2⟩ := mem_generators hg
    obtain ⟨o, ho, e⟩ := item hp
    rw [e]
    exact sound_all o g.1 g.2 h2 true (ht o (Or.inl ho)) fun h10 => hc (h10 ▸ h1) o (Or.inl ho)
  · intro g hg p hp
    obtain ⟨h1, h2⟩ := mem_generators hg
    obtain ⟨o, ho, e⟩ := item hp
    rw [e]
    exact sound_all o g.1 g.2 h2 true (ht o (Or.inr ho)) fun h10 => hc (h10 ▸ h1) o (Or.inr ho)
  · intro g hg p hp
    obtain ⟨h1, h2⟩ := mem_generators hg
    obtain ⟨o, ho, e⟩ := item hp
    rw [e]
    exact shard_all o g.1 g.2 h2 (ht o (Or.inr ho)) fun h10 => hc (h10 ▸ h1) o (Or.inr ho)
  · intro a c ha hb
    exact hm.iou a c (by simpa [Env.detFrame] using ha) (by simpa [Env.detFrame] using hb)
  · intro a c ha hb
    exact hm.aff a c (by simpa [Env.detFrame] using ha) (by simpa [Env.detFrame] using hb)
  · intro ps gs hps hgs
    exact hm.doMatch ps gs (fun a ha => by simpa [Env.detFrame] using hps a ha) fun a ha => by simpa [Env.detFrame] using hgs a ha

/-- Metrics and names of usable frames. -/
theorem prints (E : Env) {α : Type} (n : Breakdown.Config) (b : Bool) (T : List Measure.Breakdown)
    (hl : n.levels.length = (config n b).generators.length)
    (hT : (expectedShape (config n b)).map Prod.fst = T) (hT0 : T ≠ []) (hnames : breakdownNames n = some (T.map label))
    (xs : List (List Rec × List Rec)) (hne : xs ≠ []) (hm : ∀ x ∈ xs, MatcherOk E x)
    (ht : ∀ x ∈ xs, ∀ o, o ∈ x.1 ∨ o ∈ x.2 → o.type ≤ 4)
    (hc : 10 ∈ n.generators → ∀ x ∈ xs, ∀ o, o ∈ x.1 ∨ o ∈ x.2 → Placeable o) (f : DetMetrics → α) :
    ∃ ms, detMetrics E n b xs = some ms ∧ print n ms f = some (.lines (ms.map fun m => (label m.breakdown, f m))) ∧
      ms.map DetMetrics.breakdown = T ∧ ∀ m ∈ ms, MetricsOk m := by
  obtain ⟨ms, h1, h2, h3⟩ := detection_metrics_ok (config n b) 0 0 (1 / 20) (xs.map E.detFrame) _ (used n b _) (by norm_num)
    (by norm_num) (by simpa using hne) (by intro h; rw [h] at hT; exact hT0 (by rw [← hT]; rfl)) (by
      intro x hx
      obtain ⟨y, hy, rfl⟩ := List.mem_map.mp hx
      exact frame_usable E hl (hm y hy) (ht y hy) fun h => hc h y hy) (by
      intro x hx
      obtain ⟨y, hy, rfl⟩ := List.mem_map.mp hx
      exact ⟨fun a c => (hm y hy).ha a c, fun a c v hv => (hm y hy).affUnit a c v hv⟩)
  have h4 : ms.map DetMetrics.breakdown = T := by
    have := congrArg (List.map Prod.fst) h2
    rw [List.map_map] at this
    exact this.trans hT
  refine ⟨ms, h1, ?_, h4, h3⟩
  unfold print
  rw [hnames]
  simp only [Option.bind_eq_bind, Option.bind_some]
  rw [if_neg (by rw [← h4]; simp), ← h4, List.map_map]
  simp only [Option.pure_def]
  congr 2
  rw [List.zip_map', ]
  rfl

theorem examples_ne (pds gts : List Rec) (h : pds ≠ [] ∨ gts ≠ []) : examples detKey pds gts ≠ [] := by
  intro h0
  obtain ⟨h1, h2⟩ := examples_count pds gts
  rw [h0] at h1 h2
  simp only [List.map_nil, List.sum_nil] at h1 h2
  rcases h with h | h
  · exact h (List.length_eq_zero_iff.mp h1.symm)
  · exact h (List.length_eq_zero_iff.mp h2.symm)

theorem examples_mem {pds gts : List Rec} {x : List Rec × List Rec} (hx : x ∈ examples detKey pds gts) :
    (∀ o ∈ x.1, o ∈ pds) ∧ ∀ o ∈ x.2, o ∈ gts := by
  obtain ⟨os, -, -, -, -, h⟩ := examples_frames pds gts
  rw [h, List.mem_map] at hx
  obtain ⟨o, -, rfl⟩ := hx
  exact ⟨fun o ho => (List.mem_filter.mp ho).1, fun o ho => (List.mem_filter.mp ho).1⟩

theorem names2_eq : breakdownNames names2 = some ((table [(2, 4), (3, 12)] [1, 2]).map label) := by decide +kernel

theorem names3_eq : breakdownNames names3 = some ((table [(2, 4), (3, 12), (10, 20)] [2]).map label) := by decide +kernel

theorem shape2 : (expectedShape (config names2 false)).map Prod.fst = table [(2, 4), (3, 12)] [1, 2] := by
  rfl

theorem shape3 : (expectedShape (config names3 true)).map Prod.fst = table [(2, 4), (3, 12), (10, 20)] [2] := by
  rfl

/-- The metrics are those of the score cutoffs 0, 0.01, ..., 1, in this order: a number is a cutoff iff it is a whole number of hundredths. -/
theorem cutoffs_spec (n : Breakdown.Config) (b : Bool) :
    (∀ x : ℚ, x ∈ (config n b).cutoffs ↔ ∃ i : ℕ, i ≤ 100 ∧ x * 100 = i) ∧ (config n b).cutoffs.Pairwise (· < ·) ∧ (config n b).cutoffs.length = 101 := by
  show (∀ x : ℚ, x ∈ cutoffs ↔ _) ∧ cutoffs.Pairwise _ ∧ cutoffs.length = _
  have e : cutoffs = (List.range 101).map fun i : ℕ => (i : ℚ) / 100 := by
    rw [List.range_succ, List.map_append]
    simp [cutoffs]
  rw [e]
  refine ⟨fun x => ?_, ?_, by simp⟩
  · rw [List.mem_map]
    constructor
    · rintro ⟨i, hi, rfl⟩
      exact ⟨i, by rw [List.mem_range] at hi; omega, by ring⟩
    · rintro ⟨i, hi, hx⟩
      exact ⟨i, by rw [List.mem_range]; omega, by rw [← hx]; ring⟩
  · rw [List.pairwise_map]
    refine List.pairwise_lt_range.imp ?_
    intro a b h
    have : (a : ℚ) < b := by exact_mod_cast h
    linarith

/-- What the evaluation reads of an object: a score that is not set is one, and one that is set is taken as it is; the detection programs use the
difficulty for detections and the tracking program the one for tracks. -/
theorem items_spec (o : Rec) :
    ((detItem o).core = o.core ∧ (detItem o).id = o.id ∧ (trkItem o).core = o.core ∧ (trkItem o).id = o.id) ∧
    (∀ x, (detItem o).score = x ↔ o.score = some x ∨ o.score = none ∧ x = 1) ∧ (∀ x, (trkItem o).score = x ↔ o.score = some x ∨ o.score = none ∧ x = 1) ∧
    ((detItem o).nlz = true ↔ o.nlz = some true) ∧ ((trkItem o).nlz = true ↔ o.nlz = some true) ∧
    (∀ n, n ≠ 0 → ((detItem o).level = n ↔ o.detLevel = some n)) ∧ (∀ n, n ≠ 0 → ((trkItem o).level = n ↔ o.trkLevel = some n)) := by
  unfold detItem trkItem
  refine ⟨⟨rfl, rfl, rfl, rfl⟩, ?_, ?_, ?_, ?_, ?_, ?_⟩
  · intro x; cases o.score <;> simp [eq_comm]
  · intro x; cases o.score <;> simp [eq_comm]
  · cases o.nlz <;> simp
  · cases o.nlz <;> simp
  · intro n hn; cases o.detLevel <;> simp [hn.symm]
  · intro n hn; cases o.trkLevel <;> simp [hn.symm]

/-- C141: the detection program prints one line for each breakdown and level, in the documented order; each line has the
name of the breakdown whose metrics it shows, and all values are in `[0, 1]`. -/
theorem detection_prints_partial (E : Env) (pds gts : List Rec) (ht : ∀ o, o ∈ pds ∨ o ∈ gts → o.type ≤ 4)
    (hm : ∀ x ∈ examples detKey pds (prepare gts), MatcherOk E x) (hne : pds ≠ [] ∨ ∃ o ∈ gts, Visible o) :
    ∃ ms, detMetrics E names2 false (examples detKey pds (prepare gts)) = some ms ∧
      detection E (some pds) (some gts) = some (.lines (ms.map fun m => (label m.breakdown, m.map, m.mapHa))) ∧
      ms.map DetMetrics.breakdown = table [(2, 4), (3, 12)] [1, 2] ∧ ∀ m ∈ ms, MetricsOk m := by
  classical
  have hp := prepare_spec_partial gts
  have hne' : pds ≠ [] ∨ prepare gts ≠ [] := by
    rcases hne with h | ⟨o, ho, hv⟩
    · exact Or.inl h
    · right
      intro h0
      rw [h0] at hp
      have : o ∈ gts.filter fun o => decide (Visible o) := by simp [ho, hv]
      cases hq : gts.filter fun o => decide (Visible o) with
      | nil => rw [hq] at this; cases this
      | cons a l => rw [hq] at hp; cases hp
  have htp : ∀ e ∈ prepare gts, e.type ≤ 4 := by
    intro e he
    obtain ⟨o, ho, -, h⟩ := exists_of_forall₂_right hp e he
    have h1 : e.type = o.type := by have := congrArg Rec.type h; exact this
    rw [h1]
    exact ht o (Or.inr (List.mem_filter.mp ho).1)
  obtain ⟨ms, h1, h2, h3, h4⟩ := prints E (α := ℚ × ℚ) names2 false _ rfl shape2 (by decide) names2_eq
    (examples detKey pds (prepare gts)) (examples_ne _ _ hne') hm (by
      intro x hx o ho
      obtain ⟨m1, m2⟩ := examples_mem hx
      rcases ho with ho | ho
      · exact ht o (Or.inl (m1 o ho))
      · exact htp o (m2 o ho)) (by intro h; exact absurd h (by decide)) fun m => (m.map, m.mapHa)
  refine ⟨ms, h1, ?_, h3, h4⟩
  unfold detection
  simp only [h1, Option.bind_eq_bind, Option.bind_some]
  exact h2

/-- C141: the program for camera only detection prints one line for each breakdown, by type, distance and camera. -/
theorem detectionLet_prints (E : Env) (pds gts g : List Rec) (hg : prepareLet gts = some g)
    (ht : ∀ o, o ∈ pds ∨ o ∈ gts → Placeable o)
    (hm : ∀ x ∈ examples detKey pds g, MatcherOk E x) (hne : pds ≠ [] ∨ ∃ o ∈ gts, VisibleLet o) :
    ∃ ms, detMetrics E names3 true (examples detKey pds g) = some ms ∧
      detectionLet E (some pds) (some gts) = some (.lines (ms.map fun m => (label m.breakdown, m.mapLa, m.map, m.mapHa))) ∧
      ms.map DetMetrics.breakdown = table [(2, 4), (3, 12), (10, 20)] [2] ∧ ∀ m ∈ ms, MetricsOk m := by
  classical
  have hp := prepareLet_spec hg
  have hne' : pds ≠ [] ∨ g ≠ [] := by
    rcases hne with h | ⟨o, ho, hv⟩
    · exact Or.inl h
    · right
      intro h0
      rw [h0] at hp
      have : o ∈ gts.filter fun o => decide (VisibleLet o) := by simp [ho, hv]
      cases hq : gts.filter fun o => decide (VisibleLet o) with
      | nil => rw [hq] at this; cases this
      | cons a l => rw [hq] at hp; cases hp
  have htp : ∀ e ∈ g, Placeable e := by
    intro e he
    obtain ⟨o, ho, -, -, h⟩ := exists_of_forall₂_right hp e he
    have h1 : e.type = o.type := by have := congrArg Rec.type h; exact this
    have h2 : e.camera = o.camera := by have := congrArg Rec.camera h; exact this
    have h3 : e.mostVisible = o.mostVisible := by have := congrArg Rec.mostVisible h; exact this
    unfold Placeable
    rw [h1, h2, h3]
    exact ht o (Or.inr (List.mem_filter.mp ho).1)
  have hall : ∀ x ∈ examples detKey pds g, ∀ o, o ∈ x.1 ∨ o ∈ x.2 → Placeable o := by
    intro x hx o ho
    obtain ⟨m1, m2⟩ := examples_mem hx
    rcases ho with ho | ho
    · exact ht o (Or.inl (m1 o ho))
    · exact htp o (m2 o ho)
  obtain ⟨ms, h1, h2, h3, h4⟩ := prints E (α := ℚ × ℚ × ℚ) names3 true _ rfl shape3 (by decide) names3_eq
    (examples detKey pds g) (examples_ne _ _ hne') hm (fun x hx o ho => (hall x hx o ho).1) (fun _ => hall)
    fun m => (m.mapLa, m.map, m.mapHa)
  refine ⟨ms, h1, ?_, h3, h4⟩
  unfold detectionLet
  simp only [hg, h1, Option.bind_eq_bind, Option.bind_some]
  exact h2

/-- The names of the first lines, as in the documentation of the programs. -/
example : ((table [(2, 4), (3, 12)] [1, 2]).map label).take 3 =
      ["OBJECT_TYPE_TYPE_VEHICLE_LEVEL_1", "OBJECT_TYPE_TYPE_VEHICLE_LEVEL_2", "OBJECT_TYPE_TYPE_PEDESTRIAN_LEVEL_1"] ∧
    (table [(2, 4), (3, 12)] [1, 2]).length = 32 ∧
    ((table [(2, 4), (3, 12), (10, 20)] [2]).map label).take 5 =
      ["OBJECT_TYPE_TYPE_VEHICLE_LEVEL_2", "OBJECT_TYPE_TYPE_PEDESTRIAN_LEVEL_2", "OBJECT_TYPE_TYPE_SIGN_LEVEL_2",
        "OBJECT_TYPE_TYPE_CYCLIST_LEVEL_2", "RANGE_TYPE_VEHICLE_[0, 30)_LEVEL_2"] ∧
    (table [(2, 4), (3, 12), (10, 20)] [2]).length = 36 := by decide +kernel

/-- C141 is false of files without objects: the programs print that the metrics do not match the breakdowns
(compute_detection_metrics_main.cc:200-206) instead of metrics for no ground truths, which the TensorFlow operation
returns. -/
theorem no_objects_violated (E : Env) : detection E (some []) (some []) = some .mismatch := by
  have h : detMetrics E names2 false (examples detKey [] (prepare [])) = some [] := by
    unfold detMetrics computeMetrics
    show ((usedCutoffs (config names2 false) 0 ([] : List (Frame Obj String))).bind _) = _
    rw [used]
    rfl
  unfold detection
  simp only [h, Option.bind_eq_bind, Option.bind_some]
  unfold print
  rw [names2_eq]
  rfl

theorem mapM_none {α β : Type} (f : α → Option β) : ∀ {l : List α} {a : α}, a ∈ l → f a = none → l.mapM f = none := by
  intro l
  induction l with
  | nil => intro a h; cases h
  | cons b l ih =>
    intro a h hf
    rw [List.mapM_cons]
    rcases List.mem_cons.mp h with rfl | h
    · rw [hf]; rfl
    · rw [ih h hf]
      cases f b <;> rfl

/-- A frame with one ground truth that takes part in the matching of a shard but has no shard itself is not evaluated. -/
theorem unplaced_stops {c : Detection.Config Obj} {x : Frame Obj String} (hcut : c.cutoffs ≠ [])
    (hs : ∀ g ∈ c.generators, ∀ p ∈ x.gts, Sound g.2 true p.core) (hp : x.preds = []) {p : Item Obj String}
    (hg : x.gts = [p]) {n s : Nat} {g : Nat × Gen Obj} (hn : c.generators[n]? = some g) (ho : g.2.gtOnly = true)
    (hsn : s < g.2.numShards) (hb : ∃ q, shardsOf g.2 true p.core = some q ∧ (s : ℤ) ∈ q) {lv : List Nat}
    (hlv : c.levels[n]? = some lv) (hl0 : lv ≠ []) (hll : ∀ l ∈ lv, p.level ≤ l) (hm : x.doMatch [] [0] = some ([], [none]))
    (hshard : g.2.shard p.core = none) : computeMeasurements c x = none := by
  have hsound : ∀ g ∈ (c.generators.map Prod.snd).map (onItems (ι := String)), ∀ p ∈ x.gts, Sound g true p := by
    intro g hg p hp
    simp only [List.map_map, List.mem_map, Function.comp] at hg
    obtain ⟨g', hg', rfl⟩ := hg
    exact hs g' hg' p hp
  obtain ⟨pds, p1, p2, p3⟩ := buildSubsets_spec ((c.generators.map Prod.snd).map onItems) c.cutoffs Item.score x.preds
    false true (by rw [hp]; intro g _ p h; cases h)
  obtain ⟨gts, g1, g2, g3⟩ := buildSubsets_spec ((c.generators.map Prod.snd).map onItems) c.cutoffs Item.score x.gts
    true true hsound
  have hlen : pds.length = gts.length := by simpa using congrArg List.length (p2.trans g2.symm)
  have hgn : ((c.generators.map Prod.snd).map (onItems (ι := String)))[n]? = some (onItems g.2) := by
    rw [List.getElem?_map, List.getElem?_map, hn]; rfl
  -- the entry of the shard
  have hin : (n, s) ∈ gts.map fun r => (r.generatorIndex, r.shard) := by
    rw [g2, List.mem_flatMap]
    exact ⟨(onItems g.2, n), List.mem_zipIdx_iff_getElem?.mpr hgn, List.mem_map.mpr ⟨s, List.mem_range.mpr hsn, rfl⟩⟩
  obtain ⟨i, hi⟩ := List.getElem?_of_mem hin
  have hi' := hi
  rw [g2, ← p2] at hi'
  rw [List.getElem?_map, Option.map_eq_some_iff] at hi hi'
  obtain ⟨gt, hgt, egt⟩ := hi
  obtain ⟨pd, hpd, epd⟩ := hi'
  obtain ⟨e1, e2⟩ := Prod.mk.inj egt
  obtain ⟨e3, e4⟩ := Prod.mk.inj epd
  obtain ⟨gg, a1, -, a3, a4⟩ := g3 gt (List.mem_of_getElem? hgt)
  obtain ⟨gp, b1, -, b3, b4⟩ := p3 pd (List.mem_of_getElem? hpd)
  rw [e1, hgn] at a1
  cases a1
  rw [e3, hgn] at b1
  cases b1
  -- its ground truths
  rw [if_pos rfl] at a3
  have ha0 : gt.indices[0]? = some [0] := by
    obtain ⟨q, hq⟩ : ∃ q, gt.indices[0]? = some q := ⟨_, List.getElem?_eq_getElem (by omega)⟩
    obtain ⟨c1, c2, c3⟩ := a4 0 q hq
    rw [hq]
    congr 1
    have hmem : ∀ j, j ∈ q ↔ j = 0 := by
      intro j
      rw [c3]
      constructor
      · rintro ⟨⟨o, l, h1, -⟩, -⟩
        rw [hg] at h1
        have := (List.getElem?_eq_some_iff.mp h1).1
        simpa using this
      · rintro rfl
        refine ⟨?_, by intro h; cases h⟩
        obtain ⟨l, hl1, hl2⟩ := hb
        exact ⟨p, l, by rw [hg]; rfl, hl1, by rw [e2]; exact hl2⟩
    exact Ops.sorted_unique c2 (by simp) (by intro j; rw [hmem]; simp)
  -- its predictions
  have hb0 : pd.indices[0]? = some [] := by
    have hl : 0 < pd.indices.length := by
      rw [b3]
      simp only [Bool.false_eq_true, if_false]
      exact List.length_pos_iff.mpr hcut
    obtain ⟨q, hq⟩ : ∃ q, pd.indices[0]? = some q := ⟨_, List.getElem?_eq_getElem hl⟩
    rw [hq]
    congr 1
    rw [List.eq_nil_iff_forall_not_mem]
    intro j hj
    obtain ⟨⟨o, l, h1, -⟩, -⟩ := ((b4 0 q hq).2.2 j).mp hj
    rw [hp] at h1
    cases h1
  have hper : perShard c x pd gt = none := by
    unfold perShard
    rw [e3, ha0, hn, hlv]
    simp only [Option.bind_eq_bind, Option.bind_some, Option.map_some]
    have hle : lv.isEmpty = false := by cases lv with | nil => exact absurd rfl hl0 | cons => rfl
    rw [hle]
    simp only [Bool.false_eq_true, if_false]
    cases hcc : c.cutoffs with
    | nil => exact absurd hcc hcut
    | cons k ks =>
      rw [mapM_none _ (a := (k, 0)) (by simp)]
      · rfl
      · simp only [hb0, Option.bind_some, hm]
        cases lv with
        | nil => exact absurd rfl hl0
        | cons l ls =>
          apply mapM_none _ (a := l) (by simp)
          have hstep : gtStep x g.2 pd.shard [0] l {} (none, 0) = none := by
            unfold gtStep counted inBreakdown
            simp [hg, hll l (by simp), ho, hshard]
          unfold Detection.measure
          simp [hstep]
  unfold computeMeasurements
  have hce : c.cutoffs.isEmpty = false := by
    cases hcc : c.cutoffs with
    | nil => exact absurd hcc hcut
    | cons => rfl
  simp only [hce, p1, g1, Bool.false_eq_true, if_false, Option.bind_eq_bind, Option.bind_some, Option.pure_def]
  rw [if_neg (by simpa using hlen), mapM_none _ (a := (pd, gt)) ?_ hper]
  · rfl
  · apply List.mem_of_getElem? (i := i)
    rw [List.getElem?_zip_eq_some]
    exact ⟨hpd, hgt⟩

/-- A vehicle in front of the sensor whose most visible camera is given as UNKNOWN. -/
noncomputable def unknownCamera : Rec where
  context := "a"
  time := 1
  type := 1
  synced := some ⟨10, 0, 0, 2, 4, 2, 0⟩
  topPoints := some 9
  mostVisible := some "UNKNOWN"

/-- C141 is false of ground truths whose most visible camera is UNKNOWN or at the rear: the program accepts the name
(compute_detection_let_metrics_main.cc:199-202) and fails a check when it counts the object in the camera breakdown
(breakdown_generator.cc:394-409). -/
theorem unknown_camera_violated (E : Env) (h : ∀ p g, E.doMatch p g [] [0] = some ([], [none])) :
    (∃ e, prepareLet [unknownCamera] = some [e]) ∧ detectionLet E (some []) (some [unknownCamera]) = none := by
  let e : Rec := { unknownCamera with detLevel := some 1, box := ⟨10, 0, 0, 2, 4, 2, 0⟩ }
  have hp : prepareLet [unknownCamera] = some [e] := by
    simp [prepareLet, prepareLetOne, unknownCamera, withLevel, Breakdown.parseCamera, e]
  refine ⟨⟨e, hp⟩, ?_⟩
  have hx : examples detKey [] [e] = [([], [e])] := by
    simp [examples, groupBy, Ops.push, Ops.idsOf, Ops.setInsert, Ops.lookup]
  have hdeg : Breakdown.degrees e.core = 0 := by
    have h1 : (⟨e.core.cx, e.core.cy⟩ : ℂ) = ((10 : ℝ) : ℂ) := by
      apply Complex.ext <;> simp [e, Rec.core]
    unfold Breakdown.degrees
    rw [h1, Complex.arg_ofReal_of_nonneg (by norm_num), zero_mul]
  have hfov : camerasByFov e.core = [1] := by
    unfold camerasByFov
    simp only [hdeg]
    norm_num
  have hcm : computeMeasurements (config names3 true) (E.detFrame ([], [e])) = none := by
    have ht : e.core.type = 1 := rfl
    have hcam : e.core.camera = none := rfl
    have hmv : e.core.mostVisible = some "UNKNOWN" := rfl
    have hmatch : cameraMatching e.core = some [0] := by
      unfold cameraMatching
      rw [hfov, ht, hcam]
      simp [cameraOffset]
    have hq : shardsOf camera true e.core = some [0] := by
      unfold shardsOf
      rw [if_pos ⟨rfl, rfl⟩]
      exact hmatch
    refine unplaced_stops (config_cutoffs _ _) ?_ rfl (p := detItem e) rfl (n := 2) (s := 0) (g := (10, camera)) rfl rfl
      (by decide) ⟨[0], hq, by simp⟩ (lv := [2]) rfl (by simp) ?_ (h _ _) ?_
    · intro g hg p hpm
      obtain ⟨h1, h2⟩ := mem_generators hg
      obtain rfl : p = detItem e := by simpa [Env.detFrame] using hpm
      by_cases h10 : g.1 = 10
      · obtain rfl : g = (10, camera) := by
          obtain ⟨i, g⟩ := g
          simp only at h10
          subst h10
          simp only [create, Option.some.injEq] at h2
          rw [h2]
        exact ⟨[0], hq, by simp, by intro t ht; simp at ht; subst ht; exact ⟨le_rfl, by decide⟩⟩
      · exact sound_all e g.1 g.2 h2 true (by decide) fun h => absurd h h10
    · intro l hl
      simp at hl
      subst hl
      decide
    · show cameraShard e.core = none
      unfold cameraShard
      rw [ht, hcam, hmv]
      simp [parseCamera, cameraOffset]
  unfold detectionLet
  simp only [hp, Option.bind_eq_bind, Option.bind_some, hx]
  unfold detMetrics computeMetrics
  rw [used]
  simp only [Option.bind_eq_bind, Option.bind_some]
  rw [mapM_none _ (a := E.detFrame ([], [e])) (by simp) hcm]
  rfl

/-- A matcher that matches nothing keeps its promises. -/
def nothing : Env where
  iou _ _ _ _ := some 0
  aff _ _ _ _ := some 1
  ha _ _ _ _ := 1
  can _ _ _ _ := some false
  doMatch _ _ ps gs := some (ps.map fun _ => none, gs.map fun _ => none)

example (x : List Rec × List Rec) : MatcherOk nothing x := by
  refine ⟨fun _ _ _ _ => ⟨0, rfl⟩, fun _ _ _ _ => ⟨1, rfl⟩, ?_, fun _ _ => ⟨by norm_num [nothing], by norm_num [nothing]⟩,
    fun ps gs _ _ => ⟨_, _, rfl, by simp, by simp, fun i j => by simp [List.getElem?_replicate]⟩⟩
  intro a b v hv
  cases hv
  norm_num

/-- C141: a file that does not parse gives no metrics. -/
theorem unparsed (E : Env) (f : Option (List Rec)) :
    detection E none f = some .unparsed ∧ detection E f none = some .unparsed ∧
    detectionLet E none f = some .unparsed ∧ detectionLet E f none = some .unparsed := by
  cases f <;> exact ⟨rfl, rfl, rfl, rfl⟩

/-! ### The tracking program -/

/-- The promises of a matcher of tracks for a frame whose ground truths have different ids. -/
structure TrackerOk (E : Env) (x : List Rec × List Rec) : Prop where
  ids : (x.2.map Rec.id).Nodup
  can : ∀ a b, a < x.1.length → b < x.2.length → (E.can x.1 x.2 a b).isSome
  iou : ∀ a b, a < x.1.length → b < x.2.length → ∃ v, E.iou x.1 x.2 a b = some v ∧ 0 ≤ v ∧ v ≤ 1
  doMatch : ∀ ps gs : List Nat, (∀ a ∈ ps, a < x.1.length) → (∀ b ∈ gs, b < x.2.length) →
    ∃ pm gm, E.doMatch x.1 x.2 ps gs = some (pm, gm) ∧ pm.length = ps.length ∧ gm.length = gs.length ∧
      (∀ i j : Nat, pm[i]? = some (some j) ↔ gm[j]? = some (some i)) ∧
      ∀ i j : Nat, pm[i]? = some (some j) → ∃ a b, ps[i]? = some a ∧ gs[j]? = some b ∧ E.can x.1 x.2 a b = some true

theorem placed_of_type {id : Nat} {g : Gen Obj} (hg : create id = some g) (h10 : id ≠ 10) (o : Obj) (ht : o.type ≤ 4) :
    Tracking.Placed g o := by
  have h := create_sound id g hg false o ht fun h => absurd h h10
  unfold Sound shardsOf at h
  simp only [Bool.false_eq_true, false_and, if_false] at h
  obtain ⟨q, h, -⟩ := h
  cases hs : g.shard o with
  | none => rw [hs] at h; cases h
  | some s =>
    refine ⟨s, hs, ?_⟩
    rcases shard_valid id g hg o ht s hs with h | h
    · rw [h]; omega
    · exact h.2

theorem scenes_mem {pds gts : List Rec} {xs : List (List Rec × List Rec)} (hxs : xs ∈ scenes pds gts) {x : List Rec × List Rec}
    (hx : x ∈ xs) : (∀ o ∈ x.1, o ∈ pds) ∧ ∀ o ∈ x.2, o ∈ gts := by
  obtain ⟨cs, -, -, h⟩ := scenes_eq pds gts
  rw [h, List.mem_map] at hxs
  obtain ⟨c, -, rfl⟩ := hxs
  rw [examples_eq, List.mem_map] at hx
  obtain ⟨k, -, rfl⟩ := hx
  exact ⟨fun o ho => (List.mem_filter.mp (List.mem_filter.mp ho).1).1, fun o ho => (List.mem_filter.mp (List.mem_filter.mp ho).1).1⟩

theorem trackingShape2 : (Tracking.trackingShape (config names2 false)).map Prod.fst = table [(2, 4), (3, 12)] [1, 2] := by
  rfl

/-- C142: the tracking program prints one line for each breakdown and level, in the documented order; each line has the
name of the breakdown whose metrics it shows. -/
theorem tracking_prints (E : Env) (M : Tracking.Motion Obj) (H : Nat → Tracking.Orders)
    (hM : ∀ v o, (M.setSpeed v o).type = o.type) (pds gts : List Rec) (ht : ∀ o, o ∈ pds ∨ o ∈ gts → o.type ≤ 4)
    (hm : ∀ xs ∈ scenes pds gts, ∀ x ∈ xs, TrackerOk E x) (hne : pds ≠ [] ∨ gts ≠ []) :
    ∃ ms, Tracking.computeMetrics M (config names2 false) 0 H ((scenes pds gts).map fun xs => xs.map E.trkFrame) = some ms ∧
      tracking E M H (some pds) (some gts) =
        some (.lines (ms.map fun m => (label m.1, m.2.mota, m.2.motp, m.2.miss, m.2.mismatch, m.2.fp))) ∧
      ms.map Prod.fst = table [(2, 4), (3, 12)] [1, 2] := by
  have hplaced : ∀ g ∈ (config names2 false).generators, ∀ o : Obj, o.type ≤ 4 → Tracking.Placed g.2 o := by
    intro g hg o ho
    obtain ⟨h1, h2⟩ := mem_generators hg
    refine placed_of_type h2 ?_ o ho
    rintro h
    rw [h] at h1
    exact absurd h1 (by decide)
  have item : ∀ {l : List Rec} {p : Tracking.Item Obj String}, p ∈ l.map trkItem → ∃ o ∈ l, p.core = o.core := by
    intro l p hp
    obtain ⟨o, ho, rfl⟩ := List.mem_map.mp hp
    exact ⟨o, ho, rfl⟩
  have hall : Tracking.AllUsable M (config names2 false) ((scenes pds gts).map fun xs => xs.map E.trkFrame) := by
    intro ys hys
    obtain ⟨xs, hxs, rfl⟩ := List.mem_map.mp hys
    refine ⟨⟨rfl, ?_⟩, ?_⟩
    · intro y hy
      obtain ⟨x, hx, rfl⟩ := List.mem_map.mp hy
      obtain ⟨m1, m2⟩ := scenes_mem hxs hx
      have ok := hm xs hxs x hx
      refine ⟨?_, ?_, ?_, ?_, ?_, ?_⟩
      · intro g hg p hp
        obtain ⟨o, ho, e⟩ := item hp
        rw [e]
        exact hplaced g hg _ (ht o (Or.inl (m1 o ho)))
      · intro g hg p hp
        obtain ⟨o, ho, e⟩ := item hp
        rw [e]
        exact hplaced g hg _ (ht o (Or.inr (m2 o ho)))
      · have := ok.ids
        simpa [Env.trkFrame, trkItem, Function.comp_def] using this
      · intro a b ha hb
        exact ok.can a b (by simpa [Env.trkFrame] using ha) (by simpa [Env.trkFrame] using hb)
      · intro a b ha hb
        exact ok.iou a b (by simpa [Env.trkFrame] using ha) (by simpa [Env.trkFrame] using hb)
      · intro ps gs hps hgs
        exact ok.doMatch ps gs (fun a ha => by simpa [Env.trkFrame] using hps a ha) fun a ha => by simpa [Env.trkFrame] using hgs a ha
    · intro y hy p hp g hg v
      obtain ⟨x, hx, rfl⟩ := List.mem_map.mp hy
      obtain ⟨m1, -⟩ := scenes_mem hxs hx
      obtain ⟨o, ho, e⟩ := item hp
      refine hplaced g hg _ ?_
      rw [hM, e]
      exact ht o (Or.inl (m1 o ho))
  have hused : Tracking.usedCutoffs (config names2 false) 0 ((scenes pds gts).map fun xs => xs.map E.trkFrame) =
      some (config names2 false).cutoffs := by
    unfold Tracking.usedCutoffs
    rw [if_neg]
    rw [List.isEmpty_iff]
    exact config_cutoffs _ _
  have hex : ∃ ys ∈ (scenes pds gts).map fun xs => xs.map E.trkFrame, ys ≠ [] := by
    obtain ⟨cs, -, h2, h3⟩ := scenes_eq pds gts
    obtain ⟨o, ho⟩ : ∃ o, o ∈ pds ∨ o ∈ gts := by
      rcases hne with h | h
      · obtain ⟨o, ho⟩ := List.exists_mem_of_ne_nil _ h; exact ⟨o, Or.inl ho⟩
      · obtain ⟨o, ho⟩ := List.exists_mem_of_ne_nil _ h; exact ⟨o, Or.inr ho⟩
    have hc := (h2 o.context).mpr ⟨o, ho, rfl⟩
    have hxs : examples Rec.time (pds.filter fun x => decide (x.context = o.context))
        (gts.filter fun x => decide (x.context = o.context)) ∈ scenes pds gts := by
      rw [h3]
      exact List.mem_map.mpr ⟨_, hc, rfl⟩
    refine ⟨_, List.mem_map.mpr ⟨_, hxs, rfl⟩, ?_⟩
    rw [ne_eq, List.map_eq_nil_iff]
    exact (scenes_nonempty pds gts _ hxs).1
  obtain ⟨fs, v, -, h2, h3, -⟩ := Tracking.metrics_spec M 0 hused (config_cutoffs _ _) hall hex H
  have h4 : (v.map fun g => (g.breakdown, Measure.toTrkMetrics g.items)).map Prod.fst = table [(2, 4), (3, 12)] [1, 2] := by
    have := congrArg (List.map Prod.fst) h3
    rw [← trackingShape2]
    rw [List.map_map]
    rw [Measure.shape, List.map_map] at this
    exact this
  refine ⟨_, h2, ?_, h4⟩
  unfold tracking
  simp only [h2, Option.bind_eq_bind, Option.bind_some]
  unfold print
  rw [names2_eq]
  simp only [Option.bind_eq_bind, Option.bind_some]
  rw [if_neg (by rw [← h4]; simp), ← h4]
  simp only [Option.pure_def]
  congr 2
  rw [List.map_map, List.zip_map']
  rfl

/-- The matcher that matches nothing also keeps the promises of a matcher of tracks. -/
example (x : List Rec × List Rec) (h : (x.2.map Rec.id).Nodup) : TrackerOk nothing x :=
  ⟨h, fun _ _ _ _ => rfl, fun _ _ _ _ => ⟨0, rfl, le_rfl, by norm_num⟩, fun ps gs _ _ => ⟨_, _, rfl, by simp, by simp,
    fun i j => by simp [List.getElem?_replicate], fun i j hij => by simp [List.getElem?_replicate] at hij⟩⟩

end Verif.Tools
