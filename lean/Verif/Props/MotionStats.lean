import Verif.Props.MotionMap
import Mathlib.Algebra.BigOperators.Group.List.Basic
import Mathlib.Algebra.Group.Pi.Basic
import Mathlib.Algebra.Order.Group.Multiset
import Mathlib.Algebra.Group.Prod

/-!
C26: accumulation of motion metric statistics.

Statistics denote elements of a commutative monoid: sums, counts and multisets of samples per bucket.  Accumulation is
addition there, and the metrics are functions of the denotation.
-/

namespace Verif.Motion

/-! ### Specification -/

/-- What a bucket stands for. -/
abbrev BucketDen := Multiset Sample × ℕ

/-- What the statistics of a type and a step stand for. -/
abbrev Den := ((ℝ × ℕ) × (ℝ × ℕ) × (ℝ × ℕ) × (ℝ × ℕ)) × (Fin 8 → BucketDen) × (Fin 8 → BucketDen)

def Acc.den (a : Acc) : ℝ × ℕ := (a.total, a.count)

def PStats.den (b : PStats) : BucketDen := (↑b.samples, b.num)

/-- Missing buckets are empty. -/
def mapDen (s : MapStats) (i : Fin 8) : BucketDen :=
  match s[i.val]? with
  | some b => b.den
  | none => 0

def MStats.den (s : MStats) : Den :=
  ((s.ade.den, s.fde.den, s.miss.den, s.overlap.den), mapDen s.map, mapDen s.soft)

def Stats.keys (s : Stats) : List (ObjType × ℤ) := s.map (·.1)

def Stats.den (s : Stats) (k : ObjType × ℤ) : Den := (s.get k).den

/-- A bucket that the metrics can be computed from: at most as many true positives as trajectories, and a trajectory if
there are samples. -/
def PStats.Good (b : PStats) : Prop := tpCount b.samples ≤ b.num ∧ (b.samples ≠ [] → b.num ≠ 0)

/-- The buckets are either absent or one per trajectory type, and good. -/
def MapGood (s : MapStats) : Prop := (s = [] ∨ s.length = numTypes) ∧ ∀ b ∈ s, b.Good

def MStats.Good (s : MStats) : Prop := MapGood s.map ∧ MapGood s.soft

/-- A map of good statistics: no key twice. -/
def Stats.Good (s : Stats) : Prop := s.keys.Nodup ∧ ∀ e ∈ s, e.2.Good

/-! ### Accumulators -/

theorem Acc.den_accumulate (a b : Acc) : (a.accumulate b).den = a.den + b.den := rfl

theorem Acc.den_inj {a b : Acc} (h : a.den = b.den) : a = b := by
  cases a; cases b
  simp only [Acc.den, Prod.mk.injEq] at h
  rw [h.1, h.2]

theorem PStats.den_accumulate (a b : PStats) : (a.accumulate b).den = a.den + b.den := by
  simp [PStats.den, PStats.accumulate, ← Multiset.coe_add]

theorem PStats.good_zero : PStats.zero.Good := ⟨by simp [PStats.zero, tpCount], fun h => absurd rfl h⟩

theorem PStats.Good.accumulate {a b : PStats} (ha : a.Good) (hb : b.Good) : (a.accumulate b).Good := by
  refine ⟨?_, ?_⟩
  · unfold PStats.accumulate
    rw [tpCount_append]
    exact Nat.add_le_add ha.1 hb.1
  · intro h
    simp only [PStats.accumulate] at *
    by_cases h' : a.samples = []
    · have := hb.2 (fun h'' => h (by rw [h', h'']; rfl)); omega
    · have := ha.2 h'; omega

theorem mapGood_nil : MapGood [] := ⟨Or.inl rfl, by simp⟩

theorem mapDen_nil : mapDen [] = 0 := by
  funext i; simp [mapDen]

theorem mapDen_of_ne (s : MapStats) (h : s.length = numTypes) (i : Fin 8) :
    ∃ b ∈ s, s[i.val]? = some b ∧ mapDen s i = b.den := by
  have hi : i.val < s.length := by rw [h]; exact i.isLt
  exact ⟨s[i.val], List.getElem_mem hi, by simp [hi], by simp [mapDen, hi]⟩

/-- Accumulation of buckets is addition. -/
theorem accumulateMap_spec {a b : MapStats} (ha : MapGood a) (hb : MapGood b) :
    ∃ r, accumulateMap a b = .ok r ∧ MapGood r ∧ mapDen r = mapDen a + mapDen b := by
  unfold accumulateMap
  by_cases hb0 : b = []
  · rw [if_pos hb0]
    refine ⟨a, rfl, ha, ?_⟩
    rw [hb0, mapDen_nil, add_zero]
  · rw [if_neg hb0]
    have hbl : b.length = numTypes := hb.1.resolve_left hb0
    obtain ⟨a', ha', hal, hag, had⟩ : ∃ a', (if a = [] then List.replicate b.length PStats.zero else a) = a' ∧
        a'.length = numTypes ∧ (∀ x ∈ a', x.Good) ∧ mapDen a' = mapDen a := by
      by_cases ha0 : a = []
      · rw [if_pos ha0]
        refine ⟨_, rfl, by simpa using hbl, ?_, ?_⟩
        · intro x hx
          rw [List.eq_of_mem_replicate hx]
          exact PStats.good_zero
        · rw [ha0, mapDen_nil]
          funext i
          have : i.val < b.length := by rw [hbl]; exact i.isLt
          simp only [mapDen, List.getElem?_replicate, this, if_true]
          rfl
      · rw [if_neg ha0]
        exact ⟨a, rfl, ha.1.resolve_left ha0, ha.2, rfl⟩
    simp only [ha']
    rw [if_neg (by rw [hal, hbl]; exact fun h => h rfl)]
    refine ⟨_, rfl, ⟨Or.inr (by simp [hal, hbl]), ?_⟩, ?_⟩
    · intro x hx
      obtain ⟨i, hi, rfl⟩ := List.mem_iff_getElem.mp hx
      rw [List.getElem_zipWith]
      exact (hag _ (List.getElem_mem _)).accumulate (hb.2 _ (List.getElem_mem _))
    · rw [← had]
      funext i
      obtain ⟨x, _, hx, hxd⟩ := mapDen_of_ne a' hal i
      obtain ⟨y, _, hy, hyd⟩ := mapDen_of_ne b hbl i
      rw [Pi.add_apply, hxd, hyd, ← PStats.den_accumulate]
      simp [mapDen, List.getElem?_zipWith, hx, hy]

theorem MStats.good_zero : MStats.zero.Good := ⟨mapGood_nil, mapGood_nil⟩

theorem MStats.den_zero : MStats.zero.den = 0 := by
  simp only [MStats.den, MStats.zero, mapDen_nil]
  rfl

theorem MStats.accumulate_spec {a b : MStats} (ha : a.Good) (hb : b.Good) :
    ∃ r, a.accumulate b = .ok r ∧ r.Good ∧ r.den = a.den + b.den := by
  obtain ⟨r1, h1, g1, d1⟩ := accumulateMap_spec ha.1 hb.1
  obtain ⟨r2, h2, g2, d2⟩ := accumulateMap_spec ha.2 hb.2
  refine ⟨_, by simp only [MStats.accumulate, h1, h2]; rfl, ⟨g1, g2⟩, ?_⟩
  simp only [MStats.den, d1, d2, Acc.den_accumulate]
  rfl

/-! ### Maps of statistics -/

theorem Stats.get_put (s : Stats) (k k' : ObjType × ℤ) (v : MStats) :
    (s.put k v).get k' = if k' = k then v else s.get k' := by
  induction s with
  | nil =>
    by_cases h : k' = k
    · subst h; simp [Stats.put, Stats.get]
    · simp [Stats.put, Stats.get, h, Ne.symm h]
  | cons e rest ih =>
    by_cases he : e.1 = k
    · simp only [Stats.put, he, if_true]
      by_cases h : k' = k
      · subst h; simp [Stats.get]
      · simp only [Stats.get, List.find?_cons, he, beq_iff_eq, Ne.symm h, beq_eq_false_iff_ne, ne_eq, not_false_eq_true,
          h, if_false]
        have : (k == k') = false := by simpa using Ne.symm h
        rw [this]
    · simp only [Stats.put, he, if_false]
      by_cases hk : e.1 = k'
      · have : k' ≠ k := fun h => he (hk.trans h)
        simp [Stats.get, hk, this]
      · have e1 : Stats.get (e :: Stats.put rest k v) k' = (Stats.put rest k v).get k' := by
          simp [Stats.get, hk]
        have e2 : Stats.get (e :: rest) k' = Stats.get rest k' := by simp [Stats.get, hk]
        rw [e1, e2]
        exact ih

theorem Stats.mem_keys_put (s : Stats) (k k' : ObjType × ℤ) (v : MStats) :
    k' ∈ (s.put k v).keys ↔ k' = k ∨ k' ∈ s.keys := by
  induction s with
  | nil => simp [Stats.put, Stats.keys]
  | cons e rest ih =>
    unfold Stats.keys at ih ⊢
    by_cases he : e.1 = k
    · simp [Stats.put, he]
    · simp only [Stats.put, he, if_false, List.map_cons, List.mem_cons, ih]
      tauto

theorem Stats.nodup_put {s : Stats} (h : s.keys.Nodup) (k : ObjType × ℤ) (v : MStats) : (s.put k v).keys.Nodup := by
  induction s with
  | nil => simp [Stats.put, Stats.keys]
  | cons e rest ih =>
    have hc : e.1 ∉ Stats.keys rest ∧ (Stats.keys rest).Nodup := List.nodup_cons.mp h
    by_cases he : e.1 = k
    · have : Stats.keys (Stats.put (e :: rest) k v) = k :: Stats.keys rest := by simp [Stats.put, he, Stats.keys]
      rw [this, List.nodup_cons, ← he]
      exact hc
    · have : Stats.keys (Stats.put (e :: rest) k v) = e.1 :: (Stats.put rest k v).keys := by
        simp [Stats.put, he, Stats.keys]
      rw [this, List.nodup_cons, Stats.mem_keys_put]
      refine ⟨?_, ih hc.2⟩
      rintro (h | h)
      · exact he h
      · exact hc.1 h

theorem Stats.mem_put {s : Stats} {k : ObjType × ℤ} {v : MStats} {e} (h : e ∈ s.put k v) : e = (k, v) ∨ e ∈ s := by
  induction s with
  | nil => simp only [Stats.put, List.mem_singleton] at h; exact Or.inl h
  | cons a rest ih =>
    by_cases he : a.1 = k
    · simp only [Stats.put, he, if_true, List.mem_cons] at h
      rcases h with h | h
      · exact Or.inl h
      · exact Or.inr (List.mem_cons_of_mem _ h)
    · simp only [Stats.put, he, if_false, List.mem_cons] at h
      rcases h with h | h
      · exact Or.inr (by rw [h]; simp)
      · rcases ih h with h | h
        · exact Or.inl h
        · exact Or.inr (List.mem_cons_of_mem _ h)

theorem Stats.Good.get {s : Stats} (h : s.Good) (k : ObjType × ℤ) : (s.get k).Good := by
  unfold Stats.get
  cases hf : s.find? fun e => e.1 == k with
  | none => exact MStats.good_zero
  | some e => exact h.2 e (List.mem_of_find?_eq_some hf)

theorem Stats.get_of_mem {s : Stats} (h : s.keys.Nodup) {e} (he : e ∈ s) : s.get e.1 = e.2 := by
  induction s with
  | nil => simp at he
  | cons a rest ih =>
    have hc : a.1 ∉ Stats.keys rest ∧ (Stats.keys rest).Nodup := List.nodup_cons.mp h
    rcases List.mem_cons.mp he with rfl | he
    · simp [Stats.get]
    · have hne : a.1 ≠ e.1 := fun hq => hc.1 (hq ▸ List.mem_map_of_mem (f := (·.1)) he)
      have : Stats.get (a :: rest) e.1 = Stats.get rest e.1 := by simp [Stats.get, hne]
      rw [this]
      exact ih hc.2 he

theorem Stats.get_of_not_mem {s : Stats} {k} (h : k ∉ s.keys) : s.get k = MStats.zero := by
  unfold Stats.get
  have : s.find? (fun e => e.1 == k) = none := by
    rw [List.find?_eq_none]
    intro e he hq
    exact h (List.mem_map.mpr ⟨e, he, by simpa using hq⟩)
  rw [this]
  rfl

theorem Stats.addTo_spec {s : Stats} (hs : s.Good) (k : ObjType × ℤ) {v : MStats} (hv : v.Good) :
    ∃ r, s.addTo k v = .ok r ∧ r.Good ∧ (∀ k', r.den k' = s.den k' + if k' = k then v.den else 0) ∧
      ∀ k', k' ∈ r.keys ↔ k' = k ∨ k' ∈ s.keys := by
  obtain ⟨r, h1, h2, h3⟩ := MStats.accumulate_spec (hs.get k) hv
  refine ⟨s.put k r, ?_, ⟨Stats.nodup_put hs.1 _ _, ?_⟩, ?_, fun k' => Stats.mem_keys_put s k k' r⟩
  · unfold Stats.addTo
    rw [h1]; rfl
  · intro e he
    rcases Stats.mem_put he with rfl | he
    · exact h2
    · exact hs.2 e he
  · intro k'
    unfold Stats.den
    rw [Stats.get_put]
    by_cases h : k' = k
    · subst h; rw [if_pos rfl, if_pos rfl, h3]
    · rw [if_neg h, if_neg h, add_zero]

/-- C26: accumulating statistics adds them, for every type and step, and keeps exactly the keys of both. -/
theorem Stats.accumulate_spec {s t : Stats} (hs : s.Good) (ht : t.Good) :
    ∃ r, s.accumulate t = .ok r ∧ r.Good ∧ (∀ k, r.den k = s.den k + t.den k) ∧
      ∀ k, k ∈ r.keys ↔ k ∈ s.keys ∨ k ∈ t.keys := by
  induction t generalizing s with
  | nil =>
    refine ⟨s, rfl, hs, fun k => ?_, fun k => by simp [Stats.keys]⟩
    have : Stats.den [] k = 0 := MStats.den_zero
    rw [this, add_zero]
  | cons e rest ih =>
    have hc : e.1 ∉ Stats.keys rest ∧ (Stats.keys rest).Nodup := List.nodup_cons.mp ht.1
    have hrest : Stats.Good rest := ⟨hc.2, fun x hx => ht.2 x (List.mem_cons_of_mem _ hx)⟩
    obtain ⟨r1, h1, g1, d1, k1⟩ := Stats.addTo_spec hs e.1 (ht.2 e (by simp))
    obtain ⟨r, h2, g2, d2, k2⟩ := ih g1 hrest
    refine ⟨r, ?_, g2, ?_, ?_⟩
    · unfold Stats.accumulate at h2 ⊢
      rw [List.foldlM_cons, h1]
      exact h2
    · intro k
      rw [d2, d1, add_assoc]
      congr 1
      by_cases hk : k = e.1
      · subst hk
        rw [if_pos rfl]
        have : Stats.den rest e.1 = 0 := by
          unfold Stats.den
          rw [Stats.get_of_not_mem hc.1]
          exact MStats.den_zero
        rw [this, add_zero]
        unfold Stats.den
        rw [Stats.get_of_mem ht.1 (List.mem_cons_self)]
      · rw [if_neg hk, zero_add]
        unfold Stats.den
        congr 1
        simp [Stats.get, Ne.symm hk]
    · intro k
      rw [k2, k1]
      simp only [Stats.keys, List.map_cons, List.mem_cons]
      tauto

/-! ### The metrics are functions of the denotation -/

theorem averagePrecision_total {b : PStats} (h : b.Good) : ∃ v, averagePrecision b = some v := by
  by_cases hs : b.samples = []
  · exact ⟨0, by simp [averagePrecision, hs]⟩
  · exact ⟨_, averagePrecision_sum hs (h.2 hs)⟩

theorem mapM_option_total {α β : Type} {f : α → Option β} {l : List α} (h : ∀ a ∈ l, ∃ b, f a = some b) :
    ∃ r, l.mapM f = some r ∧ List.Forall₂ (fun a b => f a = some b) l r := by
  induction l with
  | nil => exact ⟨[], rfl, List.Forall₂.nil⟩
  | cons a rest ih =>
    obtain ⟨b, hb⟩ := h a (by simp)
    obtain ⟨r, hr, hf⟩ := ih fun x hx => h x (List.mem_cons_of_mem _ hx)
    exact ⟨b :: r, by simp [List.mapM_cons, hb, hr], List.Forall₂.cons hb hf⟩

theorem mapMetric_total {s : MapStats} (h : MapGood s) : ∃ v, mapMetric s = some v := by
  obtain ⟨r, hr, _⟩ := mapM_option_total (f := averagePrecision) (l := s.filter fun b => !b.samples.isEmpty)
    (fun b hb => averagePrecision_total (h.2 b (List.mem_of_mem_filter hb)))
  exact ⟨_, by unfold mapMetric; rw [hr]; rfl⟩

theorem forall₂_filter_mapM {s t : MapStats}
    (h : List.Forall₂ (fun a b : PStats => a.samples.Perm b.samples ∧ a.num = b.num) s t) :
    (s.filter fun b => !b.samples.isEmpty).mapM averagePrecision =
      (t.filter fun b => !b.samples.isEmpty).mapM averagePrecision := by
  induction h with
  | nil => rfl
  | @cons a b l l' h1 _ ih =>
    have he : a.samples.isEmpty = b.samples.isEmpty := by
      cases ha : a.samples with
      | nil => rw [ha] at h1; rw [h1.1.symm.eq_nil]
      | cons x xs =>
        cases hb : b.samples with
        | nil => rw [ha, hb] at h1; exact absurd h1.1.eq_nil (by simp)
        | cons y ys => rfl
    cases hb : b.samples.isEmpty
    · rw [List.filter_cons_of_pos (by simp [he, hb]), List.filter_cons_of_pos (by simp [hb]), List.mapM_cons,
        List.mapM_cons, averagePrecision_perm h1.1 h1.2, ih]
    · rw [List.filter_cons_of_neg (by simp [he, hb]), List.filter_cons_of_neg (by simp [hb]), ih]

theorem mapMetric_of_den_zero {s : MapStats} (hs : MapGood s) (h : mapDen s = 0) : mapMetric s = some 0 := by
  have : s.filter (fun b => !b.samples.isEmpty) = [] := by
    rw [List.filter_eq_nil_iff]
    intro b hb
    rcases hs.1 with h0 | h0
    · rw [h0] at hb; simp at hb
    · obtain ⟨i, hi, rfl⟩ := List.mem_iff_getElem.mp hb
      obtain ⟨x, _, hx, hxd⟩ := mapDen_of_ne s h0 ⟨i, by rw [h0] at hi; exact hi⟩
      rw [h] at hxd
      simp only [List.getElem?_eq_getElem hi, Option.some.injEq] at hx
      rw [hx]
      have := congrArg Prod.fst hxd
      simp only [PStats.den, Pi.zero_apply, Prod.fst_zero] at this
      have := (Multiset.coe_eq_zero x.samples).mp this.symm
      simp [this]
  unfold mapMetric
  rw [this]
  rfl

theorem mapMetric_den {s t : MapStats} (hs : MapGood s) (ht : MapGood t) (h : mapDen s = mapDen t) :
    mapMetric s = mapMetric t := by
  rcases hs.1 with h0 | h0
  · have hz : mapDen t = 0 := by rw [← h, h0, mapDen_nil]
    rw [mapMetric_of_den_zero hs (h.trans hz), mapMetric_of_den_zero ht hz]
  · rcases ht.1 with h1 | h1
    · have hz : mapDen s = 0 := by rw [h, h1, mapDen_nil]
      rw [mapMetric_of_den_zero hs hz, mapMetric_of_den_zero ht (h ▸ hz)]
    · unfold mapMetric
      rw [forall₂_filter_mapM]
      rw [List.forall₂_iff_get]
      refine ⟨by rw [h0, h1], ?_⟩
      intro i hi hi'
      obtain ⟨x, _, hx, hxd⟩ := mapDen_of_ne s h0 ⟨i, by rw [h0] at hi; exact hi⟩
      obtain ⟨y, _, hy, hyd⟩ := mapDen_of_ne t h1 ⟨i, by rw [h1] at hi'; exact hi'⟩
      rw [h, hyd] at hxd
      simp only [List.getElem?_eq_getElem hi, Option.some.injEq] at hx
      simp only [List.getElem?_eq_getElem hi', Option.some.injEq] at hy
      simp only [List.get_eq_getElem, hx, hy]
      exact ⟨Multiset.coe_eq_coe.mp (congrArg Prod.fst hxd).symm, (congrArg Prod.snd hxd).symm⟩

/-- C26: the metrics of a type and a step depend on the denotation only. -/
theorem bundle_den {a b : MStats} (ha : a.Good) (hb : b.Good) (h : a.den = b.den) : bundle a = bundle b := by
  simp only [MStats.den, Prod.mk.injEq] at h
  obtain ⟨⟨h1, h2, h3, h4⟩, h5, h6⟩ := h
  unfold bundle
  rw [mapMetric_den ha.1 hb.1 h5, mapMetric_den ha.2 hb.2 h6, Acc.den_inj h1, Acc.den_inj h2, Acc.den_inj h3,
    Acc.den_inj h4]

/-- C26: each metric of a bundle is the mean of the statistics of the same name, zero without statistics. -/
theorem bundle_spec {s : MStats} {b : Bundle} (h : bundle s = some b) :
    b.ade = s.ade.total / s.ade.count ∧ b.fde = s.fde.total / s.fde.count ∧ b.miss = s.miss.total / s.miss.count ∧
      b.overlap = s.overlap.total / s.overlap.count ∧ mapMetric s.map = some b.map ∧ mapMetric s.soft = some b.soft := by
  have hm : ∀ a : Acc, a.mean = a.total / a.count := by
    intro a
    unfold Acc.mean
    split
    · rename_i h0; simp [h0]
    · rfl
  unfold bundle at h
  simp only [Option.bind_eq_bind, Option.bind_eq_some_iff, Option.pure_def, Option.some.injEq] at h
  obtain ⟨v, hv, w, hw, rfl⟩ := h
  exact ⟨hm _, hm _, hm _, hm _, hv, hw⟩

theorem bundle_total {s : MStats} (h : s.Good) : ∃ b, bundle s = some b := by
  obtain ⟨v, hv⟩ := mapMetric_total h.1
  obtain ⟨w, hw⟩ := mapMetric_total h.2
  exact ⟨_, by unfold bundle; rw [hv, hw]; rfl⟩

/-- C26: the metrics of good statistics exist (no division by zero), one for each type and step of the statistics. -/
theorem motionMetrics_spec {s : Stats} (hs : s.Good) : ∃ l, motionMetrics s = some l ∧ l.map (·.1) = s.keys ∧
    ∀ k b, (k, b) ∈ l ↔ k ∈ s.keys ∧ bundle (s.get k) = some b := by
  obtain ⟨l, hl, hf⟩ := mapM_option_total
    (f := fun e : (ObjType × ℤ) × MStats => (do let b ← bundle e.2; pure (e.1, b) : Option _)) (l := s)
    (fun e he => by
      obtain ⟨b, hb⟩ := bundle_total (hs.2 e he)
      exact ⟨(e.1, b), by simp [hb]⟩)
  have hf' : List.Forall₂ (fun (e : (ObjType × ℤ) × MStats) (r : (ObjType × ℤ) × Bundle) =>
      e.1 = r.1 ∧ bundle e.2 = some r.2) s l := by
    refine hf.imp fun e r h => ?_
    cases hb : bundle e.2 with
    | none => simp [hb] at h
    | some b =>
      simp only [hb, Option.bind_eq_bind, Option.bind_some, Option.pure_def, Option.some.injEq] at h
      rw [← h]
      exact ⟨rfl, rfl⟩
  refine ⟨l, hl, ?_, ?_⟩
  · clear hl hf hs
    unfold Stats.keys
    induction hf' with
    | nil => rfl
    | cons h _ ih => rw [List.map_cons, List.map_cons, ih, h.1]
  · intro k b
    constructor
    · intro hm
      obtain ⟨i, hi, he⟩ := List.mem_iff_getElem.mp hm
      have hlen := hf'.length_eq
      have := (List.forall₂_iff_get.mp hf').2 i (by omega) hi
      simp only [List.get_eq_getElem, he] at this
      have hmem : s[i]'(by omega) ∈ s := List.getElem_mem _
      rw [← this.1, Stats.get_of_mem hs.1 hmem]
      exact ⟨List.mem_map_of_mem (f := (·.1)) hmem, this.2⟩
    · rintro ⟨hk, hb⟩
      obtain ⟨e, he, hek⟩ := List.mem_map.mp hk
      obtain ⟨i, hi, hei⟩ := List.mem_iff_getElem.mp he
      have hlen := hf'.length_eq
      have := (List.forall₂_iff_get.mp hf').2 i hi (by omega)
      simp only [List.get_eq_getElem, hei] at this
      have hget : s.get k = e.2 := by rw [← hek]; exact Stats.get_of_mem hs.1 he
      rw [hget, this.2] at hb
      have h2 : (l[i]'(by omega)) = (k, b) := by
        rw [Prod.ext_iff]
        exact ⟨this.1.symm.trans hek, Option.some.inj hb⟩
      rw [← h2]
      exact List.getElem_mem _

/-- Two statistics with the same keys and denotations have the same metrics. -/
theorem motionMetrics_congr {s t : Stats} (hs : s.Good) (ht : t.Good) (hk : ∀ k, k ∈ s.keys ↔ k ∈ t.keys)
    (hd : ∀ k, s.den k = t.den k) : ∃ l l', motionMetrics s = some l ∧ motionMetrics t = some l' ∧ l.Perm l' := by
  obtain ⟨l, h1, h2, h3⟩ := motionMetrics_spec hs
  obtain ⟨l', h1', h2', h3'⟩ := motionMetrics_spec ht
  refine ⟨l, l', h1, h1', ?_⟩
  rw [List.perm_ext_iff_of_nodup]
  · rintro ⟨k, b⟩
    rw [h3, h3', hk, bundle_den (hs.get k) (ht.get k) (hd k)]
  · exact List.Nodup.of_map (·.1) (h2 ▸ hs.1)
  · exact List.Nodup.of_map (·.1) (h2' ▸ ht.1)

/-- C26: accumulation is commutative, associative and has the empty statistics as unit, up to the metrics. -/
theorem Stats.accumulate_comm {s t : Stats} (hs : s.Good) (ht : t.Good) : ∃ a b l l', s.accumulate t = .ok a ∧
    t.accumulate s = .ok b ∧ motionMetrics a = some l ∧ motionMetrics b = some l' ∧ l.Perm l' := by
  obtain ⟨a, ha, ga, da, ka⟩ := Stats.accumulate_spec hs ht
  obtain ⟨b, hb, gb, db, kb⟩ := Stats.accumulate_spec ht hs
  obtain ⟨l, l', h⟩ := motionMetrics_congr ga gb (fun k => by rw [ka, kb, or_comm])
    (fun k => by rw [da, db, add_comm])
  exact ⟨a, b, l, l', ha, hb, h⟩

theorem Stats.accumulate_assoc {s t u : Stats} (hs : s.Good) (ht : t.Good) (hu : u.Good) :
    ∃ st stu tu stu' l l', s.accumulate t = .ok st ∧ st.accumulate u = .ok stu ∧ t.accumulate u = .ok tu ∧
      s.accumulate tu = .ok stu' ∧ motionMetrics stu = some l ∧ motionMetrics stu' = some l' ∧ l.Perm l' := by
  obtain ⟨st, h1, g1, d1, k1⟩ := Stats.accumulate_spec hs ht
  obtain ⟨stu, h2, g2, d2, k2⟩ := Stats.accumulate_spec g1 hu
  obtain ⟨tu, h3, g3, d3, k3⟩ := Stats.accumulate_spec ht hu
  obtain ⟨stu', h4, g4, d4, k4⟩ := Stats.accumulate_spec hs g3
  obtain ⟨l, l', h⟩ := motionMetrics_congr g2 g4 (fun k => by rw [k2, k1, k4, k3, or_assoc])
    (fun k => by rw [d2, d1, d4, d3, add_assoc])
  exact ⟨st, stu, tu, stu', l, l', h1, h2, h3, h4, h⟩

theorem Stats.accumulate_nil (s : Stats) : s.accumulate [] = .ok s := rfl

theorem Stats.good_nil : Stats.Good [] := ⟨List.nodup_nil, by simp⟩

theorem Stats.nil_accumulate {s : Stats} (hs : s.Good) : ∃ a l l', Stats.accumulate [] s = .ok a ∧
    motionMetrics a = some l ∧ motionMetrics s = some l' ∧ l.Perm l' := by
  obtain ⟨a, ha, ga, da, ka⟩ := Stats.accumulate_spec Stats.good_nil hs
  obtain ⟨l, l', h⟩ := motionMetrics_congr ga hs (fun k => by rw [ka]; simp [Stats.keys])
    (fun k => by
      have : Stats.den [] k = 0 := MStats.den_zero
      rw [da, this, zero_add])
  exact ⟨a, l, l', ha, h⟩

/-- C26: the statistics across types are the sums over the types. -/
theorem Stats.acrossTypes_spec {s : Stats} (hs : s.Good) : ∃ r, s.acrossTypes = .ok r ∧ r.Good ∧
    ∀ step, r.den (.unset, step) = ((s.filter fun e => decide (e.1.2 = step)).map fun e => e.2.den).sum := by
  have key : ∀ (l : Stats) (r0 : Stats), r0.Good → (∀ e ∈ l, e.2.Good) →
      ∃ r, l.foldlM (fun r e => r.addTo (.unset, e.1.2) e.2) r0 = .ok r ∧ r.Good ∧
      ∀ step, r.den (.unset, step) =
        r0.den (.unset, step) + ((l.filter fun e => decide (e.1.2 = step)).map fun e => e.2.den).sum := by
    intro l
    induction l with
    | nil => intro r0 h0 _; exact ⟨r0, rfl, h0, fun step => by simp⟩
    | cons e rest ih =>
      intro r0 h0 hl
      obtain ⟨r1, h1, g1, d1, _⟩ := Stats.addTo_spec h0 (.unset, e.1.2) (hl e (by simp))
      obtain ⟨r, h2, g2, d2⟩ := ih r1 g1 fun x hx => hl x (List.mem_cons_of_mem _ hx)
      refine ⟨r, by rw [List.foldlM_cons, h1]; exact h2, g2, ?_⟩
      intro step
      rw [d2, d1, add_assoc]
      congr 1
      by_cases hstep : e.1.2 = step
      · rw [List.filter_cons_of_pos (by simpa using hstep), List.map_cons, List.sum_cons, if_pos (by rw [hstep])]
      · rw [List.filter_cons_of_neg (by simpa using hstep), if_neg (by
          intro h
          exact hstep (congrArg Prod.snd h).symm), zero_add]
  obtain ⟨r, h1, h2, h3⟩ := key s [] Stats.good_nil hs.2
  refine ⟨r, h1, h2, fun step => ?_⟩
  have : Stats.den [] (ObjType.unset, step) = 0 := MStats.den_zero
  rw [h3, this, zero_add]

/-- C27: the mean over the buckets lies in [0, 1]. -/
theorem mapMetric_bounds {s : MapStats} (h : MapGood s) {v : ℝ} (hv : mapMetric s = some v) : 0 ≤ v ∧ v ≤ 1 := by
  obtain ⟨r, hr, hf⟩ := mapM_option_total (f := averagePrecision) (l := s.filter fun b => !b.samples.isEmpty)
    (fun b hb => averagePrecision_total (h.2 b (List.mem_of_mem_filter hb)))
  unfold mapMetric at hv
  rw [hr] at hv
  simp only [Option.bind_eq_bind, Option.bind_some, Option.pure_def, Option.some.injEq] at hv
  have hb : ∀ x ∈ r, 0 ≤ x ∧ x ≤ 1 := by
    intro x hx
    obtain ⟨i, hi, rfl⟩ := List.mem_iff_getElem.mp hx
    have hlen := hf.length_eq
    have := (List.forall₂_iff_get.mp hf).2 i (by omega) hi
    simp only [List.get_eq_getElem] at this
    have hm : (s.filter fun b => !b.samples.isEmpty)[i]'(by omega) ∈ s := List.mem_of_mem_filter (List.getElem_mem _)
    have := averagePrecision_bounds this (h.2 _ hm).1
    exact ⟨this.1, this.2.2⟩
  have h0 : 0 ≤ r.sum := List.sum_nonneg fun x hx => (hb x hx).1
  have h1 : r.sum ≤ r.length := by
    have := List.sum_le_card_nsmul r 1 fun x hx => (hb x hx).2
    simpa using this
  rw [← hv]
  split
  · exact ⟨le_refl _, zero_le_one⟩
  · rename_i hne
    have : (0 : ℝ) < r.length := by exact_mod_cast Nat.pos_of_ne_zero hne
    exact ⟨by positivity, by rw [div_le_one this]; exact h1⟩

end Verif.Motion
