import Verif.Model.Measure
import Mathlib.Algebra.BigOperators.Group.List.Basic
import Mathlib.Algebra.Group.Pi.Basic
import Mathlib.Algebra.Group.Prod
import Mathlib.Tactic.Linarith
import Mathlib.Tactic.Ring
import Mathlib.Data.List.Induction

/-!
Properties C15 (accumulation of measurements) and C59 (tracking metrics).
-/

namespace Verif.Measure

/-! ### Specification vocabulary -/

/-- The counters of a detection measurement. -/
def Det.counts {δ : Type} (m : Det δ) : ℤ × ℤ × ℤ × ℚ × ℚ := (m.fps, m.tps, m.fns, m.ha, m.la)

/-- The counters of a tracking measurement. -/
def Trk.counts (m : Trk) : ℤ × ℤ × ℤ × ℚ × ℤ × ℤ :=
  (m.misses, m.fps, m.mismatches, m.cost, m.matches_, m.objects)

/-- Value `j` of a list, zero beyond its end. -/
def entry {M C : Type} [AddCommMonoid C] (cnt : M → C) (l : List M) (j : Nat) : C :=
  match l[j]? with
  | some a => cnt a
  | none => 0

/-- The counters of measurement `j` of group `i`; zero if there is none. -/
def countsAt {M C : Type} [AddCommMonoid C] (cnt : M → C) (v : List (Group M)) (i j : Nat) : C :=
  entry (fun g : Group M => entry cnt g.items) v i j

/-- The breakdowns and cutoffs of a vector of measurements. -/
def shape {M K : Type} (key : M → K) (v : List (Group M)) : List (Breakdown × List K) :=
  v.map fun g => (g.breakdown, g.items.map key)

/-- A vector as `ComputeDetectionMeasurements` produces it: no group is empty and every measurement has
its cutoff set. -/
def WellFormed {M : Type} (good : M → Prop) (v : List (Group M)) : Prop :=
  ∀ g ∈ v, g.items ≠ [] ∧ ∀ m ∈ g.items, good m

/-! ### Merging lists of equal shape -/

section Generic
variable {M K C : Type} [AddCommMonoid C]

/-- What a merge of two elements has to do. -/
structure Adds (f : M → M → Option M) (key : M → K) (cnt : M → C) (good : M → Prop) : Prop where
  ok : ∀ a b, good a → good b → key a = key b →
    ∃ c, f a b = some c ∧ key c = key a ∧ cnt c = cnt a + cnt b ∧ good c
  refuse : ∀ a b, good a → good b → key a ≠ key b → f a b = none

theorem entry_cons {cnt : M → C} (a : M) (l : List M) :
    entry cnt (a :: l) = fun j => match j with
      | 0 => cnt a
      | j + 1 => entry cnt l j := by
  funext j; cases j <;> simp [entry]

theorem zipMerge_ok {f : M → M → Option M} {key : M → K} {cnt : M → C} {good : M → Prop}
    (h : Adds f key cnt good) : ∀ l k : List M, (∀ m ∈ l, good m) → (∀ m ∈ k, good m) → l.map key = k.map key →
    ∃ r, zipMerge f l k = some r ∧ r.map key = l.map key ∧ (∀ m ∈ r, good m) ∧
      entry cnt r = entry cnt l + entry cnt k := by
  intro l
  induction l with
  | nil =>
    intro k _ _ hk
    have : k = [] := by simpa using hk.symm
    subst this
    refine ⟨[], rfl, rfl, by simp, ?_⟩
    funext j; simp [entry]
  | cons a l ih =>
    intro k hl hk hkey
    cases k with
    | nil => simp at hkey
    | cons b k =>
      simp only [List.map_cons, List.cons.injEq] at hkey
      obtain ⟨c, c1, c2, c3, c4⟩ := h.ok a b (hl a (by simp)) (hk b (by simp)) hkey.1
      obtain ⟨r, r1, r2, r3, r4⟩ := ih k (fun m hm => hl m (by simp [hm])) (fun m hm => hk m (by simp [hm])) hkey.2
      refine ⟨c :: r, by simp [zipMerge, c1, r1], by simp [c2, r2], ?_, ?_⟩
      · intro m hm
        rcases List.mem_cons.mp hm with rfl | hm
        · exact c4
        · exact r3 m hm
      · funext j
        rw [Pi.add_apply, entry_cons, entry_cons, entry_cons]
        cases j with
        | zero => exact c3
        | succ j => exact congrFun r4 j

theorem zipMerge_refuse {f : M → M → Option M} {key : M → K} {cnt : M → C} {good : M → Prop}
    (h : Adds f key cnt good) : ∀ l k : List M, (∀ m ∈ l, good m) → (∀ m ∈ k, good m) → l.map key ≠ k.map key →
    zipMerge f l k = none := by
  intro l
  induction l with
  | nil =>
    intro k _ _ hk
    cases k with
    | nil => exact absurd rfl hk
    | cons b k => rfl
  | cons a l ih =>
    intro k hl hk hkey
    cases k with
    | nil => rfl
    | cons b k =>
      unfold zipMerge
      by_cases h1 : key a = key b
      · have : l.map key ≠ k.map key := by
          intro h2; apply hkey; simp [h1, h2]
        rw [ih k (fun m hm => hl m (by simp [hm])) (fun m hm => hk m (by simp [hm])) this]
        cases f a b <;> rfl
      · rw [h.refuse a b (hl a (by simp)) (hk b (by simp)) h1]

theorem mergeGroup_adds {f : M → M → Option M} {key : M → K} {cnt : M → C} {good : M → Prop}
    (h : Adds f key cnt good) :
    Adds (fun m new => mergeGroup f new m) (fun g : Group M => (g.breakdown, g.items.map key))
      (fun g : Group M => entry cnt g.items) (fun g => g.items ≠ [] ∧ ∀ m ∈ g.items, good m) where
  ok := by
    rintro ⟨d, l⟩ ⟨d', k⟩ ⟨ha1, ha2⟩ ⟨hb1, hb2⟩ hkey
    simp only [Prod.mk.injEq] at hkey ha1 ha2 hb1 hb2
    obtain ⟨hd, hk⟩ := hkey
    obtain ⟨r, r1, r2, r3, r4⟩ := zipMerge_ok h l k ha2 hb2 hk
    have hlen : l.length = k.length := by simpa using congrArg List.length hk
    refine ⟨⟨d, r⟩, ?_, by simp [r2], r4, ?_, r3⟩
    · simp only [mergeGroup, hlen, hd, r1]
      simp [hb1]
    · intro hr
      have hr : r = [] := hr
      rw [hr] at r2
      simp only [List.map_nil] at r2
      exact ha1 (by simpa using r2.symm)
  refuse := by
    rintro ⟨d, l⟩ ⟨d', k⟩ ⟨ha1, ha2⟩ ⟨hb1, hb2⟩ hkey
    simp only at ha1 ha2 hb1 hb2
    unfold mergeGroup
    have hl0 : l.length ≠ 0 := by simpa using ha1
    simp only [hl0, if_false]
    split_ifs with h1 h2
    · rfl
    · rfl
    · have hd : d = d' := not_not.mp h2
      have : l.map key ≠ k.map key := by
        intro hk; exact hkey (by rw [hd, hk])
      rw [zipMerge_refuse h l k ha2 hb2 this]; rfl

theorem fold_ok {f : M → M → Option M} {key : M → K} {cnt : M → C} {good : M → Prop}
    (h : Adds f key cnt good) (S : K) : ∀ (ms : List M) (m0 : M), good m0 → key m0 = S →
      (∀ m ∈ ms, good m ∧ key m = S) →
    ∃ v, ms.foldlM f m0 = some v ∧ good v ∧ key v = S ∧ cnt v = cnt m0 + (ms.map cnt).sum := by
  intro ms
  induction ms with
  | nil => intro m0 h1 h2 _; exact ⟨m0, rfl, h1, h2, by simp⟩
  | cons m ms ih =>
    intro m0 h1 h2 h3
    obtain ⟨k1, k2⟩ := h3 m (by simp)
    obtain ⟨c, c1, c2, c3, c4⟩ := h.ok m0 m h1 k1 (by rw [h2, k2])
    obtain ⟨v, v1, v2, v3, v4⟩ := ih c c4 (by rw [c2, h2]) (fun m hm => h3 m (by simp [hm]))
    refine ⟨v, by rw [List.foldlM_cons, c1]; exact v1, v2, v3, ?_⟩
    rw [v4, c3, List.map_cons, List.sum_cons, add_assoc]

end Generic

/-- A detection measurement with its cutoff set. -/
def HasCutoff {δ : Type} (m : Det δ) : Prop := m.cutoff.isSome = true

theorem mergeDet_adds {δ : Type} :
    Adds (mergeDet (δ := δ)) Det.cutoff Det.counts HasCutoff where
  ok := by
    intro a b ha hb hk
    obtain ⟨x, hx⟩ := Option.isSome_iff_exists.mp ha
    obtain ⟨y, hy⟩ := Option.isSome_iff_exists.mp hb
    rw [hx, hy] at hk
    obtain rfl := Option.some.inj hk
    simp only [mergeDet, hx, hy, if_true]
    exact ⟨_, rfl, rfl, rfl, rfl⟩
  refuse := by
    intro a b ha hb hk
    obtain ⟨x, hx⟩ := Option.isSome_iff_exists.mp ha
    obtain ⟨y, hy⟩ := Option.isSome_iff_exists.mp hb
    rw [hx, hy] at hk
    simp only [mergeDet, hx, hy]
    rw [if_neg fun h => hk (by rw [h])]

theorem mergeTrk_adds : Adds mergeTrk Trk.cutoff Trk.counts (fun _ => True) where
  ok := by
    intro a b _ _ hk
    simp only [mergeTrk, hk, if_true]
    exact ⟨_, rfl, by simp, rfl, trivial⟩
  refuse := by
    intro a b _ _ hk
    simp [mergeTrk, hk]

theorem vecDet_adds {δ : Type} : Adds (fun m new : List (Group (Det δ)) => mergeVecDet new m)
    (shape Det.cutoff) (fun v => entry (fun g : Group (Det δ) => entry Det.counts g.items) v)
    (fun v => v ≠ [] ∧ WellFormed HasCutoff v) where
  ok := by
    rintro a b ⟨ha, ha'⟩ ⟨hb, hb'⟩ hk
    obtain ⟨r, r1, r2, r3, r4⟩ := zipMerge_ok (mergeGroup_adds (mergeDet_adds (δ := δ))) a b ha' hb' hk
    refine ⟨r, ?_, r2, r4, ?_, r3⟩
    · simp only [mergeVecDet]
      rw [if_neg (by simpa using ha)]
      exact r1
    · intro hr; rw [hr] at r2; exact ha (by simpa using r2.symm)
  refuse := by
    rintro a b ⟨ha, ha'⟩ ⟨hb, hb'⟩ hk
    simp only [mergeVecDet]
    rw [if_neg (by simpa using ha)]
    exact zipMerge_refuse (mergeGroup_adds (mergeDet_adds (δ := δ))) a b ha' hb' hk

theorem vecTrk_adds : Adds (fun m new : List (Group Trk) => mergeVecTrk new m)
    (shape Trk.cutoff) (fun v => entry (fun g : Group Trk => entry Trk.counts g.items) v)
    (fun v => v ≠ [] ∧ WellFormed (fun _ => True) v) where
  ok := by
    rintro a b ⟨ha, ha'⟩ ⟨hb, hb'⟩ hk
    obtain ⟨r, r1, r2, r3, r4⟩ := zipMerge_ok (mergeGroup_adds mergeTrk_adds) a b ha' hb' hk
    refine ⟨r, ?_, r2, r4, ?_, r3⟩
    · simp only [mergeVecTrk]
      rw [if_neg (by simpa using ha), if_neg (by simpa using hb)]
      exact r1
    · intro hr; rw [hr] at r2; exact ha (by simpa using r2.symm)
  refuse := by
    rintro a b ⟨ha, ha'⟩ ⟨hb, hb'⟩ hk
    simp only [mergeVecTrk]
    rw [if_neg (by simpa using ha), if_neg (by simpa using hb)]
    exact zipMerge_refuse (mergeGroup_adds mergeTrk_adds) a b ha' hb' hk

theorem sum_apply₂ {C : Type} [AddCommMonoid C] (l : List (Nat → Nat → C)) (i j : Nat) :
    l.sum i j = (l.map fun f => f i j).sum := by
  induction l with
  | nil => rfl
  | cons f l ih => simp [List.sum_cons, ih]

/-! ### C15 -/

/-- Specification: the frames of a non-empty list can be accumulated. -/
def Compatible {M K : Type} (key : M → K) (good : M → Prop) (S : List (Breakdown × List K))
    (fs : List (List (Group M))) : Prop :=
  ∀ f ∈ fs, f ≠ [] ∧ WellFormed good f ∧ shape key f = S

/-- C15 for detection.  Per-frame measurement vectors of one shape are accumulated without a failing check;
the result has the same shape and each counter is the sum of that counter over the frames. -/
theorem detection_accumulates {δ : Type} (S : List (Breakdown × List (Option ℚ)))
    (fs : List (List (Group (Det δ)))) (hne : fs ≠ []) (hS : Compatible Det.cutoff HasCutoff S fs) :
    ∃ v, mergeAllDet fs = some v ∧ Compatible Det.cutoff HasCutoff S [v] ∧
      ∀ i j, countsAt Det.counts v i j = (fs.map fun f => countsAt Det.counts f i j).sum := by
  cases fs with
  | nil => exact absurd rfl hne
  | cons f fs =>
    obtain ⟨a1, a2, a3⟩ := hS f (by simp)
    obtain ⟨v, v1, v2, v3, v4⟩ := fold_ok (vecDet_adds (δ := δ)) S fs f ⟨a1, a2⟩ a3
      (fun m hm => ⟨⟨(hS m (by simp [hm])).1, (hS m (by simp [hm])).2.1⟩, (hS m (by simp [hm])).2.2⟩)
    refine ⟨v, v1, ?_, ?_⟩
    · intro g hg
      obtain rfl := List.mem_singleton.mp hg
      exact ⟨v2.1, v2.2, v3⟩
    · intro i j
      unfold countsAt
      rw [v4, Pi.add_apply, Pi.add_apply, sum_apply₂, List.map_cons, List.sum_cons, List.map_map]
      rfl

/-- C15 for tracking. -/
theorem tracking_accumulates (S : List (Breakdown × List ℚ)) (fs : List (List (Group Trk))) (hne : fs ≠ [])
    (hS : Compatible Trk.cutoff (fun _ => True) S fs) :
    ∃ v, mergeAllTrk fs = some v ∧ Compatible Trk.cutoff (fun _ => True) S [v] ∧
      ∀ i j, countsAt Trk.counts v i j = (fs.map fun f => countsAt Trk.counts f i j).sum := by
  cases fs with
  | nil => exact absurd rfl hne
  | cons f fs =>
    obtain ⟨a1, a2, a3⟩ := hS f (by simp)
    obtain ⟨v, v1, v2, v3, v4⟩ := fold_ok vecTrk_adds S fs f ⟨a1, a2⟩ a3
      (fun m hm => ⟨⟨(hS m (by simp [hm])).1, (hS m (by simp [hm])).2.1⟩, (hS m (by simp [hm])).2.2⟩)
    refine ⟨v, ?_, ?_, ?_⟩
    · unfold mergeAllTrk
      rw [List.foldlM_cons]
      exact v1
    · intro g hg
      obtain rfl := List.mem_singleton.mp hg
      exact ⟨v2.1, v2.2, v3⟩
    · intro i j
      unfold countsAt
      rw [v4, Pi.add_apply, Pi.add_apply, sum_apply₂, List.map_cons, List.sum_cons, List.map_map]
      rfl

/-- Two vectors agree in shape and in every counter. -/
def SameCounts {M K C : Type} [AddCommMonoid C] (key : M → K) (cnt : M → C) (v w : List (Group M)) : Prop :=
  shape key v = shape key w ∧ ∀ i j, countsAt cnt v i j = countsAt cnt w i j

/-- C15: the frames can be processed in any order. -/
theorem detection_order_irrelevant {δ : Type} (S : List (Breakdown × List (Option ℚ)))
    (fs gs : List (List (Group (Det δ)))) (hp : fs.Perm gs) (hne : fs ≠ [])
    (hS : Compatible Det.cutoff HasCutoff S fs) :
    ∃ v w, mergeAllDet fs = some v ∧ mergeAllDet gs = some w ∧ SameCounts Det.cutoff Det.counts v w := by
  obtain ⟨v, v1, v2, v3⟩ := detection_accumulates S fs hne hS
  obtain ⟨w, w1, w2, w3⟩ := detection_accumulates S gs (fun h => hne (by rw [h] at hp; exact hp.eq_nil))
    (fun f hf => hS f (hp.mem_iff.mpr hf))
  refine ⟨v, w, v1, w1, ?_, ?_⟩
  · rw [(v2 v (by simp)).2.2, (w2 w (by simp)).2.2]
  · intro i j
    rw [v3, w3]
    exact (hp.map _).sum_eq

/-- C15: the frames can be split into shards that are merged separately. -/
theorem detection_sharding_irrelevant {δ : Type} (S : List (Breakdown × List (Option ℚ)))
    (shards : List (List (List (Group (Det δ))))) (hne : shards ≠ []) (hne' : ∀ fs ∈ shards, fs ≠ [])
    (hS : Compatible Det.cutoff HasCutoff S shards.flatten) :
    ∃ parts v w, shards.mapM mergeAllDet = some parts ∧ mergeAllDet parts = some v ∧
      mergeAllDet shards.flatten = some w ∧ SameCounts Det.cutoff Det.counts v w := by
  have key : ∀ sh : List (List (List (Group (Det δ)))), (∀ fs ∈ sh, fs ≠ []) →
      Compatible Det.cutoff HasCutoff S sh.flatten →
      ∃ parts, sh.mapM mergeAllDet = some parts ∧ parts.length = sh.length ∧
        Compatible Det.cutoff HasCutoff S parts ∧
        ∀ i j, (parts.map fun f => countsAt Det.counts f i j).sum =
          (sh.flatten.map fun f => countsAt Det.counts f i j).sum := by
    intro sh
    induction sh with
    | nil => intro _ _; exact ⟨[], by simp, rfl, by intro f hf; simp at hf, by simp⟩
    | cons fs sh ih =>
      intro h1 h2
      obtain ⟨v, v1, v2, v3⟩ := detection_accumulates S fs (h1 fs (by simp)) (fun f hf => h2 f (by simp [hf]))
      obtain ⟨parts, p1, p2, p3, p4⟩ := ih (fun f hf => h1 f (by simp [hf]))
        (fun f hf => h2 f (by rw [List.flatten_cons, List.mem_append]; exact Or.inr hf))
      refine ⟨v :: parts, by simp [List.mapM_cons, v1, p1], by simp [p2], ?_, ?_⟩
      · intro f hf
        rcases List.mem_cons.mp hf with rfl | hf
        · exact v2 f (by simp)
        · exact p3 f hf
      · intro i j
        rw [List.map_cons, List.sum_cons, p4, v3, List.flatten_cons, List.map_append, List.sum_append]
  obtain ⟨parts, p1, p2, p3, p4⟩ := key shards hne' hS
  have hp : parts ≠ [] := by
    intro h; rw [h] at p2; exact hne (by simpa using p2.symm)
  have hf : shards.flatten ≠ [] := by
    obtain ⟨fs, sh, rfl⟩ := List.exists_cons_of_ne_nil hne
    intro h
    rw [List.flatten_cons, List.append_eq_nil_iff] at h
    exact hne' fs (by simp) h.1
  obtain ⟨v, v1, v2, v3⟩ := detection_accumulates S parts hp p3
  obtain ⟨w, w1, w2, w3⟩ := detection_accumulates S shards.flatten hf hS
  refine ⟨parts, v, w, p1, v1, w1, ?_, ?_⟩
  · rw [(v2 v (by simp)).2.2, (w2 w (by simp)).2.2]
  · intro i j; rw [v3, w3, p4]

/-- C15 for tracking: the scenes can be processed in any order. -/
theorem tracking_order_irrelevant (S : List (Breakdown × List ℚ)) (fs gs : List (List (Group Trk)))
    (hp : fs.Perm gs) (hne : fs ≠ []) (hS : Compatible Trk.cutoff (fun _ => True) S fs) :
    ∃ v w, mergeAllTrk fs = some v ∧ mergeAllTrk gs = some w ∧ SameCounts Trk.cutoff Trk.counts v w := by
  obtain ⟨v, v1, v2, v3⟩ := tracking_accumulates S fs hne hS
  obtain ⟨w, w1, w2, w3⟩ := tracking_accumulates S gs (fun h => hne (by rw [h] at hp; exact hp.eq_nil))
    (fun f hf => hS f (hp.mem_iff.mpr hf))
  refine ⟨v, w, v1, w1, ?_, ?_⟩
  · rw [(v2 v (by simp)).2.2, (w2 w (by simp)).2.2]
  · intro i j
    rw [v3, w3]
    exact (hp.map _).sum_eq

/-- C15 for tracking: the scenes can be split into shards that are merged separately. -/
theorem tracking_sharding_irrelevant (S : List (Breakdown × List ℚ))
    (shards : List (List (List (Group Trk)))) (hne : shards ≠ []) (hne' : ∀ fs ∈ shards, fs ≠ [])
    (hS : Compatible Trk.cutoff (fun _ => True) S shards.flatten) :
    ∃ parts v w, shards.mapM mergeAllTrk = some parts ∧ mergeAllTrk parts = some v ∧
      mergeAllTrk shards.flatten = some w ∧ SameCounts Trk.cutoff Trk.counts v w := by
  have key : ∀ sh : List (List (List (Group Trk))), (∀ fs ∈ sh, fs ≠ []) →
      Compatible Trk.cutoff (fun _ => True) S sh.flatten →
      ∃ parts, sh.mapM mergeAllTrk = some parts ∧ parts.length = sh.length ∧
        Compatible Trk.cutoff (fun _ => True) S parts ∧
        ∀ i j, (parts.map fun f => countsAt Trk.counts f i j).sum =
          (sh.flatten.map fun f => countsAt Trk.counts f i j).sum := by
    intro sh
    induction sh with
    | nil => intro _ _; exact ⟨[], by simp, rfl, by intro f hf; simp at hf, by simp⟩
    | cons fs sh ih =>
      intro h1 h2
      obtain ⟨v, v1, v2, v3⟩ := tracking_accumulates S fs (h1 fs (by simp)) (fun f hf => h2 f (by simp [hf]))
      obtain ⟨parts, p1, p2, p3, p4⟩ := ih (fun f hf => h1 f (by simp [hf]))
        (fun f hf => h2 f (by rw [List.flatten_cons, List.mem_append]; exact Or.inr hf))
      refine ⟨v :: parts, by simp [List.mapM_cons, v1, p1], by simp [p2], ?_, ?_⟩
      · intro f hf
        rcases List.mem_cons.mp hf with rfl | hf
        · exact v2 f (by simp)
        · exact p3 f hf
      · intro i j
        rw [List.map_cons, List.sum_cons, p4, v3, List.flatten_cons, List.map_append, List.sum_append]
  obtain ⟨parts, p1, p2, p3, p4⟩ := key shards hne' hS
  have hp : parts ≠ [] := by
    intro h; rw [h] at p2; exact hne (by simpa using p2.symm)
  have hf : shards.flatten ≠ [] := by
    obtain ⟨fs, sh, rfl⟩ := List.exists_cons_of_ne_nil hne
    intro h
    rw [List.flatten_cons, List.append_eq_nil_iff] at h
    exact hne' fs (by simp) h.1
  obtain ⟨v, v1, v2, v3⟩ := tracking_accumulates S parts hp p3
  obtain ⟨w, w1, w2, w3⟩ := tracking_accumulates S shards.flatten hf hS
  refine ⟨parts, v, w, p1, v1, w1, ?_, ?_⟩
  · rw [(v2 v (by simp)).2.2, (w2 w (by simp)).2.2]
  · intro i j; rw [v3, w3, p4]

/-- C15: vectors with different breakdowns, numbers of measurements or cutoffs are refused. -/
theorem merge_refuses_other_shape {δ : Type} (v w : List (Group (Det δ))) (hv : v ≠ []) (hw : w ≠ [])
    (wv : WellFormed HasCutoff v) (ww : WellFormed HasCutoff w)
    (h : shape Det.cutoff v ≠ shape Det.cutoff w) : mergeVecDet w v = none :=
  vecDet_adds.refuse v w ⟨hv, wv⟩ ⟨hw, ww⟩ h

/-- C15: the same for tracking. -/
theorem merge_refuses_other_shape_tracking (v w : List (Group Trk)) (hv : v ≠ []) (hw : w ≠ [])
    (wv : WellFormed (fun _ => True) v) (ww : WellFormed (fun _ => True) w)
    (h : shape Trk.cutoff v ≠ shape Trk.cutoff w) : mergeVecTrk w v = none :=
  vecTrk_adds.refuse v w ⟨hv, wv⟩ ⟨hw, ww⟩ h

/-- Two frames with two cutoffs: the hypotheses are met and the counters add up. -/
example :
    let f : List (Group (Det Nat)) := [⟨⟨1, 0, 2⟩, [{ fps := 1, tps := 2, cutoff := some 0 },
      { fps := 0, tps := 1, cutoff := some (1 / 2) }]⟩]
    Compatible Det.cutoff HasCutoff [(⟨1, 0, 2⟩, [some 0, some (1 / 2)])] [f, f] ∧
      (mergeAllDet [f, f]).map (fun v => countsAt Det.counts v 0 0) = some (2, 4, 0, 0, 0) := by
  refine ⟨?_, by decide +kernel⟩
  intro g hg
  simp only [List.mem_cons, List.not_mem_nil, or_false, or_self] at hg
  subst hg
  refine ⟨by simp, ?_, by simp [shape]⟩
  intro g hg
  simp only [List.mem_singleton] at hg
  subst hg
  simp [HasCutoff]

/-! ### Details while accumulating (part of C15 that the code restricts) -/

/-- If every measurement carries the details of one frame, accumulating frame by frame keeps all details
in the order of the frames. -/
theorem details_appended_partial {δ : Type} (c : ℚ) (ms : List (Det δ)) (hd : ∀ m ∈ ms, m.details.length = 1)
    (hc : ∀ m ∈ ms, m.cutoff = some c) (m0 : Det δ) (hc0 : m0.cutoff = some c) :
    ∃ v, ms.foldlM mergeDet m0 = some v ∧ v.details = m0.details ++ (ms.map Det.details).flatten := by
  induction ms generalizing m0 with
  | nil => exact ⟨m0, rfl, by simp⟩
  | cons m ms ih =>
    have h1 := hc m (by simp)
    have h2 := hd m (by simp)
    have e : mergeDet m0 m = some ⟨m0.fps + m.fps, m0.tps + m.tps, m0.fns + m.fns, m0.ha + m.ha, m0.la + m.la,
        some c, m0.details ++ m.details⟩ := by
      simp [mergeDet, hc0, h1, h2]
    obtain ⟨v, v1, v2⟩ := ih (fun m hm => hd m (by simp [hm])) (fun m hm => hc m (by simp [hm]))
      ⟨m0.fps + m.fps, m0.tps + m.tps, m0.fns + m.fns, m0.ha + m.ha, m0.la + m.la, some c, m0.details ++ m.details⟩ rfl
    refine ⟨v, by rw [List.foldlM_cons, e]; exact v1, ?_⟩
    rw [v2]; simp

/-- Merging two shards of two frames each loses the details of all four (detection_metrics.cc:213-216), while
merging the same four frames one by one keeps them. -/
theorem details_sharding_violated :
    let m : Nat → Det Nat := fun d => { tps := 1, cutoff := some 0, details := [d] }
    ((mergeDet (m 1) (m 2)).bind fun a => (mergeDet (m 3) (m 4)).bind fun b => mergeDet a b).map Det.details =
        some [] ∧
      ([m 2, m 3, m 4].foldlM mergeDet (m 1)).map Det.details = some [1, 2, 3, 4] := by
  decide +kernel

/-! ### C59: tracking metrics -/

/-- Specification: the accuracy of a measurement. -/
def Trk.mota (m : Trk) : ℚ := 1 - (m.misses / m.objects + m.fps / m.objects + m.mismatches / m.objects)

/-- Specification: the precision of a measurement. -/
def Trk.motp (m : Trk) : ℚ := if 0 < m.matches_ then m.cost / m.matches_ else 0

/-- Specification: `r` reports the measurement `m`. -/
def Reports (r : TrkMetrics) (m : Trk) : Prop :=
  r.mota = m.mota ∧ r.motp = m.motp ∧ r.miss = m.misses / m.objects ∧ r.fp = m.fps / m.objects ∧
    r.mismatch = m.mismatches / m.objects ∧ r.cutoff = m.cutoff

theorem toTrkMetrics_snoc (ms : List Trk) (m : Trk) :
    toTrkMetrics (ms ++ [m]) = trkMetricsStep (toTrkMetrics ms) m := by
  simp [toTrkMetrics]

/-- What is reported in every case: either all accuracies are at most zero and everything but the object
count is zero, or the first measurement with the largest accuracy is reported. -/
theorem toTrkMetrics_cases (ms : List Trk) :
    ((∀ m ∈ ms, m.objects ≠ 0 → m.mota ≤ 0) ∧
      ∃ n, toTrkMetrics ms = { objects := n }) ∨
    ∃ before m after, ms = before ++ m :: after ∧ m.objects ≠ 0 ∧ 0 < m.mota ∧ Reports (toTrkMetrics ms) m ∧
      (∀ m' ∈ ms, m'.objects ≠ 0 → m'.mota ≤ m.mota) ∧ ∀ m' ∈ before, m'.objects ≠ 0 → m'.mota < m.mota := by
  induction ms using List.reverseRecOn with
  | nil => exact Or.inl ⟨by simp, 0, rfl⟩
  | append_singleton ms a ih =>
    rw [toTrkMetrics_snoc]
    by_cases h0 : a.objects = 0
    · have hstep : ∀ r, trkMetricsStep r a = r := by intro r; simp [trkMetricsStep, h0]
      rw [hstep]
      rcases ih with ⟨h1, h2⟩ | ⟨before, m, after, e1, e2, e3, e4, e5, e6⟩
      · refine Or.inl ⟨?_, h2⟩
        intro m hm hm0
        rcases List.mem_append.mp hm with hm | hm
        · exact h1 m hm hm0
        · obtain rfl := List.mem_singleton.mp hm; exact absurd h0 hm0
      · refine Or.inr ⟨before, m, after ++ [a], by simp [e1], e2, e3, e4, ?_, e6⟩
        intro m' hm hm0
        rcases List.mem_append.mp hm with hm | hm
        · exact e5 m' hm hm0
        · obtain rfl := List.mem_singleton.mp hm; exact absurd h0 hm0
    · by_cases hlt : (toTrkMetrics ms).mota < a.mota
      · have hrep : Reports (trkMetricsStep (toTrkMetrics ms) a) a := by
          have hlt' := hlt
          unfold Trk.mota at hlt'
          simp only [trkMetricsStep, h0, if_false, hlt', if_true]
          exact ⟨rfl, rfl, rfl, rfl, rfl, rfl⟩
        have hall : ∀ m' ∈ ms, m'.objects ≠ 0 → m'.mota < a.mota := by
          rcases ih with ⟨h1, n, h2⟩ | ⟨before, m, after, e1, e2, e3, e4, e5, e6⟩
          · intro m' hm hm0
            rw [h2] at hlt
            exact lt_of_le_of_lt (h1 m' hm hm0) hlt
          · intro m' hm hm0
            rw [e4.1] at hlt
            exact lt_of_le_of_lt (e5 m' hm hm0) hlt
        have hpos : 0 < a.mota := by
          rcases ih with ⟨h1, n, h2⟩ | ⟨before, m, after, e1, e2, e3, e4, e5, e6⟩
          · rw [h2] at hlt; exact hlt
          · rw [e4.1] at hlt; exact lt_trans e3 hlt
        refine Or.inr ⟨ms, a, [], by simp, h0, hpos, hrep, ?_, hall⟩
        intro m' hm hm0
        rcases List.mem_append.mp hm with hm | hm
        · exact (hall m' hm hm0).le
        · obtain rfl := List.mem_singleton.mp hm; exact le_refl _
      · have hstep : trkMetricsStep (toTrkMetrics ms) a = { toTrkMetrics ms with objects := a.objects } := by
          have hlt' := hlt
          unfold Trk.mota at hlt'
          simp only [trkMetricsStep, h0, if_false, hlt']
        rw [hstep]
        rcases ih with ⟨h1, n, h2⟩ | ⟨before, m, after, e1, e2, e3, e4, e5, e6⟩
        · refine Or.inl ⟨?_, a.objects, by rw [h2]⟩
          intro m hm hm0
          rcases List.mem_append.mp hm with hm | hm
          · exact h1 m hm hm0
          · obtain rfl := List.mem_singleton.mp hm
            rw [h2] at hlt; exact not_lt.mp hlt
        · refine Or.inr ⟨before, m, after ++ [a], by simp [e1], e2, e3, e4, ?_, e6⟩
          intro m' hm hm0
          rcases List.mem_append.mp hm with hm | hm
          · exact e5 m' hm hm0
          · obtain rfl := List.mem_singleton.mp hm
            rw [e4.1] at hlt; exact not_lt.mp hlt

/-- C59 (the part that holds).  If some cutoff has positive accuracy, the reported values are those of the
first cutoff with the largest accuracy, and the accuracy is one minus the reported ratios. -/
theorem tracking_metrics_best_partial (ms : List Trk) (h : ∃ m ∈ ms, m.objects ≠ 0 ∧ 0 < m.mota) :
    (∃ m ∈ ms, m.objects ≠ 0 ∧ Reports (toTrkMetrics ms) m ∧ ∀ m' ∈ ms, m'.objects ≠ 0 → m'.mota ≤ m.mota) ∧
      (toTrkMetrics ms).mota = 1 - ((toTrkMetrics ms).miss + (toTrkMetrics ms).fp + (toTrkMetrics ms).mismatch) := by
  rcases toTrkMetrics_cases ms with ⟨h1, -⟩ | ⟨before, m, after, e1, e2, e3, e4, e5, e6⟩
  · obtain ⟨m, hm, h0, hp⟩ := h
    exact absurd (h1 m hm h0) (not_le.mpr hp)
  · refine ⟨⟨m, by simp [e1], e2, e4, e5⟩, ?_⟩
    obtain ⟨k1, -, k3, k4, k5, -⟩ := e4
    rw [k1, k3, k4, k5]; rfl

/-- C59 is false of the code: with accuracy -2 at the only cutoff the report says accuracy 0, no misses, no
false positives and no mismatches. -/
theorem tracking_metrics_best_violated :
    let m : Trk := { misses := 5, fps := 10, objects := 5, cutoff := 1 / 2 }
    m.mota = -2 ∧ toTrkMetrics [m] = { objects := 5 } := by
  decide +kernel

/-- The hypothesis of `tracking_metrics_best_partial` is met. -/
example : let a : Trk := { misses := 4, objects := 5, cutoff := 0 }
    let b : Trk := { misses := 1, fps := 1, matches_ := 4, cost := 1, objects := 5, cutoff := 1 / 2 }
    0 < b.mota ∧ toTrkMetrics [a, b] = ⟨3 / 5, 1 / 4, 1 / 5, 0, 1 / 5, 1 / 2, 5⟩ := by
  decide +kernel

end Verif.Measure
