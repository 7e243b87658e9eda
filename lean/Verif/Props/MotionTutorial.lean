import Mathlib.Tactic.Ring
import Mathlib.Tactic.Linarith
import Mathlib.Tactic.NormNum
import Mathlib.Algebra.Order.BigOperators.Group.List
import Verif.Lemmas.ListM
import Verif.Model.MotionTutorial

/-! Properties of the code of tutorial/tutorial_motion.ipynb (C210, C211, C212). -/

namespace Verif.MotionTutorial

open Verif.ListM

/-! ### C210: pictures -/

theorem foldl_min_le : ∀ (l : List ℝ) (a : ℝ), l.foldl min a ≤ a ∧ (∀ x ∈ l, l.foldl min a ≤ x) ∧ (l.foldl min a = a ∨ l.foldl min a ∈ l) := by
  intro l
  induction l with
  | nil => intro a; simp
  | cons b l ih =>
    intro a
    obtain ⟨h1, h2, h3⟩ := ih (min a b)
    rw [List.foldl_cons]
    refine ⟨h1.trans (min_le_left _ _), ?_, ?_⟩
    · intro x hx
      rcases List.mem_cons.1 hx with rfl | hx
      · exact h1.trans (min_le_right _ _)
      · exact h2 x hx
    · rcases h3 with h3 | h3
      · rw [h3]
        rcases min_choice a b with e | e
        · exact Or.inl e
        · exact Or.inr (by rw [e]; simp)
      · exact Or.inr (by simp [h3])

theorem le_foldl_max : ∀ (l : List ℝ) (a : ℝ), a ≤ l.foldl max a ∧ (∀ x ∈ l, x ≤ l.foldl max a) ∧ (l.foldl max a = a ∨ l.foldl max a ∈ l) := by
  intro l
  induction l with
  | nil => intro a; simp
  | cons b l ih =>
    intro a
    obtain ⟨h1, h2, h3⟩ := ih (max a b)
    rw [List.foldl_cons]
    refine ⟨(le_max_left _ _).trans h1, ?_, ?_⟩
    · intro x hx
      rcases List.mem_cons.1 hx with rfl | hx
      · exact (le_max_right _ _).trans h1
      · exact h2 x hx
    · rcases h3 with h3 | h3
      · rw [h3]
        rcases max_choice a b with e | e
        · exact Or.inl e
        · exact Or.inr (by rw [e]; simp)
      · exact Or.inr (by simp [h3])

theorem minOf_spec {l : List ℝ} {m : ℝ} (h : minOf l = some m) : m ∈ l ∧ ∀ x ∈ l, m ≤ x := by
  cases l with
  | nil => simp [minOf] at h
  | cons a l =>
    obtain ⟨h1, h2, h3⟩ := foldl_min_le l a
    have e := Option.some.inj h
    rw [e] at h1 h2 h3
    exact ⟨by rcases h3 with h3 | h3 <;> simp [h3], by simpa using ⟨h1, h2⟩⟩

theorem maxOf_spec {l : List ℝ} {m : ℝ} (h : maxOf l = some m) : m ∈ l ∧ ∀ x ∈ l, x ≤ m := by
  cases l with
  | nil => simp [maxOf] at h
  | cons a l =>
    obtain ⟨h1, h2, h3⟩ := le_foldl_max l a
    have e := Option.some.inj h
    rw [e] at h1 h2 h3
    exact ⟨by rcases h3 with h3 | h3 <;> simp [h3], by simpa using ⟨h1, h2⟩⟩

/-- Specification: a valid position of an agent. -/
def Occupied (agents : List Agent) (x y : ℝ) : Prop := ∃ a ∈ agents, ((x, y), true) ∈ a.past ++ a.current ++ a.future

/-- **C210**: the view has all valid positions of all agents at all steps; it is a square of at least 10 metres. -/
theorem viewport_spec {agents : List Agent} {cy cx w : ℝ} (h : viewport agents = some (cy, cx, w)) {x0 x1 y0 y1 : ℝ}
    (hl : limits cy cx w = (x0, x1, y0, y1)) : x1 - x0 = y1 - y0 ∧ 10 ≤ x1 - x0 ∧
    ∀ x y, Occupied agents x y → x0 ≤ x ∧ x ≤ x1 ∧ y0 ≤ y ∧ y ≤ y1 := by
  unfold viewport at h
  simp only [Option.bind_eq_bind, Option.bind_eq_some_iff, Option.pure_def, Option.some.injEq, Prod.mk.injEq] at h
  obtain ⟨maxY, h1, minY, h2, maxX, h3, minX, h4, e1, e2, e3⟩ := h
  simp only [limits, Prod.mk.injEq] at hl
  obtain ⟨rfl, rfl, rfl, rfl⟩ := hl
  have hs : w ≤ max 10 (w * 1) := by rw [mul_one]; exact le_max_right _ _
  have h10 : 10 ≤ max 10 (w * 1) := le_max_left _ _
  refine ⟨by ring, by linarith, ?_⟩
  rintro x y ⟨a, ha, hm⟩
  have hv : (x, y) ∈ ((agents.map Agent.all).flatten.filter fun s => s.2).map Prod.fst := by
    rw [List.mem_map]
    refine ⟨((x, y), true), ?_, rfl⟩
    rw [List.mem_filter]
    exact ⟨List.mem_flatten.2 ⟨a.all, List.mem_map.2 ⟨a, ha, rfl⟩, hm⟩, rfl⟩
  have hy := (maxOf_spec h1).2 y (List.mem_map.2 ⟨(x, y), hv, rfl⟩)
  have hy2 := (minOf_spec h2).2 y (List.mem_map.2 ⟨(x, y), hv, rfl⟩)
  have hx := (maxOf_spec h3).2 x (List.mem_map.2 ⟨(x, y), hv, rfl⟩)
  have hx2 := (minOf_spec h4).2 x (List.mem_map.2 ⟨(x, y), hv, rfl⟩)
  have w1 : maxY - minY ≤ w := by rw [← e3]; exact le_max_left _ _
  have w2 : maxX - minX ≤ w := by rw [← e3]; exact le_max_right _ _
  refine ⟨?_, ?_, ?_, ?_⟩ <;> linarith

/-- **C210**: there is a view if and only if there is a valid position. -/
theorem viewport_some (agents : List Agent) : (viewport agents).isSome ↔ ∃ x y, Occupied agents x y := by
  have hne : ∀ l : List ℝ, l ≠ [] → (∃ a, minOf l = some a) ∧ ∃ b, maxOf l = some b := by
    intro l hl
    obtain ⟨a, l, rfl⟩ := List.exists_cons_of_ne_nil hl
    exact ⟨⟨_, rfl⟩, ⟨_, rfl⟩⟩
  constructor
  · intro h
    obtain ⟨v, h⟩ := Option.isSome_iff_exists.1 h
    unfold viewport at h
    simp only [Option.bind_eq_bind, Option.bind_eq_some_iff] at h
    obtain ⟨maxY, h1, _⟩ := h
    obtain ⟨p, hp, _⟩ := List.mem_map.1 (maxOf_spec h1).1
    obtain ⟨⟨q, b⟩, hq, rfl⟩ := List.mem_map.1 hp
    rw [List.mem_filter] at hq
    obtain ⟨l, hl, hq1⟩ := List.mem_flatten.1 hq.1
    obtain ⟨a, ha, rfl⟩ := List.mem_map.1 hl
    have hb : b = true := hq.2
    subst hb
    exact ⟨q.1, q.2, a, ha, hq1⟩
  · rintro ⟨x, y, a, ha, hm⟩
    have hv : (x, y) ∈ ((agents.map Agent.all).flatten.filter fun s => s.2).map Prod.fst := by
      rw [List.mem_map]
      refine ⟨((x, y), true), ?_, rfl⟩
      rw [List.mem_filter]
      exact ⟨List.mem_flatten.2 ⟨a.all, List.mem_map.2 ⟨a, ha, rfl⟩, hm⟩, rfl⟩
    have hv0 := List.ne_nil_of_mem hv
    obtain ⟨⟨a1, h1⟩, ⟨a2, h2⟩⟩ := hne ((((agents.map Agent.all).flatten.filter fun s => s.2).map Prod.fst).map Prod.snd) (by simpa using hv0)
    obtain ⟨⟨a3, h3⟩, ⟨a4, h4⟩⟩ := hne ((((agents.map Agent.all).flatten.filter fun s => s.2).map Prod.fst).map Prod.fst) (by simpa using hv0)
    unfold viewport
    simp only [h1, h2, h3, h4, Option.bind_eq_bind, Option.bind_some, Option.pure_def]
    rfl

/-- **C210**: the agents in the picture of a step are exactly those that are valid then, where they are. -/
theorem picture_agents (title : Title) (road states : List ((ℝ × ℝ) × Bool)) (i : ℕ) (p : ℝ × ℝ) :
    (i, p) ∈ (picture title road states).agents ↔ states[i]? = some (p, true) := by
  simp only [picture, List.mem_filterMap]
  constructor
  · rintro ⟨⟨⟨q, b⟩, j⟩, hm, he⟩
    split_ifs at he with hb
    have e := Option.some.inj he
    rw [Prod.mk.injEq] at e
    obtain ⟨rfl, rfl⟩ := e
    have hb : b = true := hb
    subst hb
    exact List.mk_mem_zipIdx_iff_getElem?.1 hm
  · intro h
    exact ⟨((p, true), i), List.mk_mem_zipIdx_iff_getElem?.2 h, by simp⟩

/-- Specification: the title of step `k` of all steps. -/
def titleOf (p k : ℕ) : Title := if k < p then .past (p - k) else if k = p then .current else .future (k - p)

/-- **C210**: picture `k` shows step `k` of all agents, with its title. -/
theorem pictures_spec_partial {p f : ℕ} {agents : List Agent} {road : List ((ℝ × ℝ) × Bool)} {out : List Picture}
    (ha : ∀ a ∈ agents, a.past.length = p ∧ a.current.length = 1 ∧ a.future.length = f) (h : pictures p f agents road = some out) :
    out.length = p + 1 + f ∧ ∀ (k : ℕ) im, out[k]? = some im → im.title = titleOf p k ∧
      ∀ (i : ℕ) q, (i, q) ∈ im.agents ↔ ∃ a, agents[i]? = some a ∧ (a.past ++ a.current ++ a.future)[k]? = some (q, true) := by
  unfold pictures at h
  simp only [Option.bind_eq_bind, Option.bind_eq_some_iff, Option.pure_def, Option.some.injEq] at h
  obtain ⟨past, h1, s, h2, future, h3, rfl⟩ := h
  have f1 := mapM_forall₂ h1
  have f3 := mapM_forall₂ h3
  have l1 : past.length = p := by rw [← f1.length_eq]; simp
  have l3 : future.length = f := by rw [← f3.length_eq]; simp
  have key : ∀ (sel : Agent → List ((ℝ × ℝ) × Bool)) (j k : ℕ) (st : List ((ℝ × ℝ) × Bool)) (title : Title),
      (agents.mapM fun a => (sel a)[j]?) = some st → (∀ a ∈ agents, (a.past ++ a.current ++ a.future)[k]? = (sel a)[j]?) →
      ∀ (i : ℕ) q, (i, q) ∈ (picture title road st).agents ↔ ∃ a, agents[i]? = some a ∧ (a.past ++ a.current ++ a.future)[k]? = some (q, true) := by
    intro sel j k st title hm hk i q
    rw [picture_agents]
    have hf := mapM_forall₂ hm
    constructor
    · intro hi
      obtain ⟨hi1, e⟩ := List.getElem?_eq_some_iff.1 hi
      have hi2 : i < agents.length := by rw [hf.length_eq]; exact hi1
      have := (List.forall₂_iff_get.1 hf).2 i hi2 hi1
      simp only [List.get_eq_getElem, e] at this
      exact ⟨agents[i], List.getElem?_eq_getElem hi2, by rw [hk _ (List.getElem_mem hi2), this]⟩
    · rintro ⟨a, hi, hq⟩
      obtain ⟨hi2, rfl⟩ := List.getElem?_eq_some_iff.1 hi
      have hi1 : i < st.length := by rw [← hf.length_eq]; exact hi2
      have := (List.forall₂_iff_get.1 hf).2 i hi2 hi1
      simp only [List.get_eq_getElem] at this
      rw [hk _ (List.getElem_mem hi2), this] at hq
      rw [List.getElem?_eq_getElem hi1, hq]
  refine ⟨by simp [l1, l3]; omega, ?_⟩
  intro k im hk
  by_cases hlt : k < p
  · rw [List.append_assoc, List.getElem?_append_left (by omega)] at hk
    obtain ⟨hk1, e⟩ := List.getElem?_eq_some_iff.1 hk
    have := (List.forall₂_iff_get.1 f1).2 k (by simpa using hlt) hk1
    simp only [List.get_eq_getElem, List.getElem_range, e, Option.bind_eq_some_iff, Option.some.injEq] at this
    obtain ⟨st, hs, rfl⟩ := this
    refine ⟨by simp [picture, titleOf, hlt], key Agent.past k k st _ hs ?_⟩
    intro a hm
    rw [List.append_assoc, List.getElem?_append_left (by rw [(ha a hm).1]; exact hlt)]
  · by_cases heq : k = p
    · subst heq
      rw [List.append_assoc, List.getElem?_append_right (by omega), l1] at hk
      have e : picture .current road s = im := by simpa using hk
      rw [← e]
      refine ⟨by simp [picture, titleOf], key Agent.current 0 k s _ h2 ?_⟩
      intro a hm
      rw [List.append_assoc, List.getElem?_append_right (by rw [(ha a hm).1]), (ha a hm).1, Nat.sub_self,
        List.getElem?_append_left (by rw [(ha a hm).2.1]; omega)]
    · rw [List.getElem?_append_right (by simp; omega)] at hk
      simp only [List.length_append, List.length_singleton, l1] at hk
      obtain ⟨hk1, e⟩ := List.getElem?_eq_some_iff.1 hk
      have := (List.forall₂_iff_get.1 f3).2 (k - (p + 1)) (by rw [f3.length_eq]; exact hk1) hk1
      simp only [List.get_eq_getElem, List.getElem_range, e, Option.bind_eq_some_iff, Option.some.injEq] at this
      obtain ⟨st, hs, rfl⟩ := this
      refine ⟨?_, key Agent.future (k - (p + 1)) k st _ hs ?_⟩
      · simp only [picture, titleOf, hlt, heq, if_false]
        rw [show k - (p + 1) + 1 = k - p by omega]
      · intro a hm
        rw [List.getElem?_append_right (by simp [(ha a hm).1, (ha a hm).2.1]; omega)]
        simp [(ha a hm).1, (ha a hm).2.1]

/-- **C210 is violated**: samples of the road that are not valid are drawn as well. -/
theorem road_violated (title : Title) (states : List ((ℝ × ℝ) × Bool)) (q : ℝ × ℝ) : q ∈ (picture title [(q, false)] states).road := by
  simp [picture]

/-- **C210 is violated**: of the 19 pictures of an animation of 91 steps only the first 9 are shown, that is, none after step 40. -/
theorem animated_violated {A : Type} (images : List A) (h : images.length = 91) :
    (animated (everyFifth images)).length = 9 ∧ ∀ (k : ℕ), k < 9 → (animated (everyFifth images))[k]? = images[5 * k]? := by
  have e : ∀ (n : ℕ) (l : List A) (g : ℕ → ℕ), (∀ k < n, g k < l.length) →
      ((List.range n).filterMap fun k => l[g k]?).length = n ∧ ∀ (k : ℕ), k < n → ((List.range n).filterMap fun k => l[g k]?)[k]? = l[g k]? := by
    intro n l g hg
    have : ((List.range n).filterMap fun k => l[g k]?).map some = (List.range n).map fun k => l[g k]? := by
      clear h
      induction n with
      | zero => rfl
      | succ n ih =>
        rw [List.range_succ, List.filterMap_append, List.map_append, List.map_append, ih fun k hk => hg k (by omega)]
        have := hg n (by omega)
        simp [List.getElem?_eq_getElem this]
    refine ⟨by have := congrArg List.length this; simpa using this, ?_⟩
    intro k hk
    have h2 := congrArg (fun l => l[k]?) this
    simp only [List.getElem?_map, List.getElem?_range hk, Option.map_some] at h2
    rw [Option.map_eq_some_iff] at h2
    obtain ⟨a, h3, h4⟩ := h2
    rw [h3, h4]
  obtain ⟨l1, p1⟩ := e 19 images (fun k => 5 * k) (by intro k hk; simp only [h]; omega)
  have hf : everyFifth images = (List.range 19).filterMap fun k => images[5 * k]? := by
    unfold everyFifth
    rw [h]
  rw [← hf] at l1 p1
  obtain ⟨l2, p2⟩ := e 9 (everyFifth images) (fun k => k) (by intro k hk; rw [l1]; omega)
  have hg : animated (everyFifth images) = (List.range 9).filterMap fun k => (everyFifth images)[k]? := by
    unfold animated
    rw [l1]
  rw [hg]
  exact ⟨l2, fun k hk => by rw [p2 k hk, p1 k (by omega)]⟩

/-! ### C211: training -/

/-- Specification: the squared error of a step that counts. -/
noncomputable def counted (b : Track × List (ℝ × ℝ)) : List ℝ :=
  ((b.1.future.zip b.2).filter fun p => p.1.2 && b.1.toPredict).map fun p => ((p.1.1.x - p.2.1) ^ 2 + (p.1.1.y - p.2.2) ^ 2) / 2

theorem terms_sum (t : Track) (pred : List (ℝ × ℝ)) (h10 : t.past.length = 10) (h1 : t.current.length = 1) :
    ((terms t pred).map fun t => t.1 * t.2).sum = (counted (t, pred)).sum ∧ (terms t pred).length = (t.future.zip pred).length := by
  have hd : t.truth.drop predictionStart = t.future := by
    unfold Track.truth predictionStart
    rw [List.drop_append, List.drop_eq_nil_of_le (by simp [h10, h1])]
    simp [h10, h1]
  unfold terms counted
  rw [hd]
  refine ⟨?_, by simp⟩
  simp only [List.map_map]
  generalize t.future.zip pred = l
  induction l with
  | nil => simp
  | cons p l ih =>
    rw [List.map_cons, List.sum_cons, ih]
    by_cases hp : p.1.2 = true
    · by_cases ht : t.toPredict = true
      · simp [hp, ht]
      · simp [hp, ht]
    · simp [hp]

/-- **C211, what holds**: the loss is the sum of the errors of valid future steps of objects to predict, divided by the number of all future steps of all
objects. -/
theorem loss_partial (batch : List (Track × List (ℝ × ℝ))) (h : ∀ b ∈ batch, b.1.past.length = 10 ∧ b.1.current.length = 1 ∧ b.1.future.length = b.2.length) :
    loss batch = (batch.map fun b => (counted b).sum).sum / ((batch.map fun b => b.1.future.length).sum : ℕ) := by
  unfold loss
  dsimp only
  congr 1
  · induction batch with
    | nil => simp
    | cons b batch ih =>
      obtain ⟨h1, h2, h3⟩ := h b (by simp)
      have := ih fun c hc => h c (by simp [hc])
      simp only [List.map_cons, List.flatten_cons, List.map_append, List.sum_append, List.sum_cons] at this ⊢
      rw [this, (terms_sum b.1 b.2 h1 h2).1]
  · congr 1
    induction batch with
    | nil => simp
    | cons b batch ih =>
      obtain ⟨h1, h2, h3⟩ := h b (by simp)
      have := ih fun c hc => h c (by simp [hc])
      simp only [List.map_cons, List.flatten_cons, List.length_append, List.sum_cons] at this ⊢
      rw [this, (terms_sum b.1 b.2 h1 h2).2, List.length_zip, h3, min_self]

/-- **C211**: the loss is not negative, and zero if and only if every step that counts is predicted exactly. -/
theorem loss_zero (batch : List (Track × List (ℝ × ℝ))) (h : ∀ b ∈ batch, b.1.past.length = 10 ∧ b.1.current.length = 1 ∧ b.1.future.length = b.2.length)
    (hne : 0 < (batch.map fun b => b.1.future.length).sum) : 0 ≤ loss batch ∧
    (loss batch = 0 ↔ ∀ b ∈ batch, b.1.toPredict = true → ∀ p ∈ b.1.future.zip b.2, p.1.2 = true → p.2 = (p.1.1.x, p.1.1.y)) := by
  have hpos : ∀ b : Track × List (ℝ × ℝ), ∀ e ∈ counted b, 0 ≤ e := by
    intro b e he
    obtain ⟨p, _, rfl⟩ := List.mem_map.1 he
    positivity
  have hb : ∀ b : Track × List (ℝ × ℝ), 0 ≤ (counted b).sum := fun b => List.sum_nonneg (hpos b)
  have hz : ∀ b : Track × List (ℝ × ℝ), (counted b).sum = 0 ↔
      (b.1.toPredict = true → ∀ p ∈ b.1.future.zip b.2, p.1.2 = true → p.2 = (p.1.1.x, p.1.1.y)) := by
    intro b
    have : ∀ l : List ℝ, (∀ e ∈ l, 0 ≤ e) → (l.sum = 0 ↔ ∀ e ∈ l, e = 0) := by
      intro l
      induction l with
      | nil => simp
      | cons a l ih =>
        intro h
        have h1 := h a (by simp)
        have h2 : ∀ e ∈ l, 0 ≤ e := fun e he => h e (by simp [he])
        have h3 := List.sum_nonneg h2
        rw [List.sum_cons, List.forall_mem_cons, ← ih h2]
        constructor
        · intro h4; constructor <;> linarith
        · rintro ⟨h4, h5⟩; linarith
    rw [this _ (hpos b)]
    constructor
    · intro hh ht p hp hv
      have := hh _ (List.mem_map.2 ⟨p, List.mem_filter.2 ⟨hp, by simp [hv, ht]⟩, rfl⟩)
      have a1 : (p.1.1.x - p.2.1) ^ 2 = 0 := by nlinarith [sq_nonneg (p.1.1.x - p.2.1), sq_nonneg (p.1.1.y - p.2.2)]
      have a2 : (p.1.1.y - p.2.2) ^ 2 = 0 := by nlinarith [sq_nonneg (p.1.1.x - p.2.1), sq_nonneg (p.1.1.y - p.2.2)]
      have b1 := pow_eq_zero_iff (two_ne_zero) |>.1 a1
      have b2 := pow_eq_zero_iff (two_ne_zero) |>.1 a2
      exact Prod.ext (by simp only; linarith) (by simp only; linarith)
    · intro hh e he
      obtain ⟨p, hp, rfl⟩ := List.mem_map.1 he
      rw [List.mem_filter] at hp
      have hc : p.1.2 = true ∧ b.1.toPredict = true := by simpa using hp.2
      have := hh hc.2 p hp.1 hc.1
      rw [this]
      simp
  rw [loss_partial batch h]
  have hsum : 0 ≤ (batch.map fun b => (counted b).sum).sum := List.sum_nonneg (by intro e he; obtain ⟨b, _, rfl⟩ := List.mem_map.1 he; exact hb b)
  have hn : (0 : ℝ) < ((batch.map fun b => b.1.future.length).sum : ℕ) := by exact_mod_cast hne
  refine ⟨div_nonneg hsum hn.le, ?_⟩
  rw [div_eq_zero_iff, or_iff_left hn.ne']
  clear h hne hsum hn
  induction batch with
  | nil => simp
  | cons b batch ih =>
    have h1 := hb b
    have h2 : 0 ≤ (batch.map fun b => (counted b).sum).sum := List.sum_nonneg (by intro e he; obtain ⟨b, _, rfl⟩ := List.mem_map.1 he; exact hb b)
    rw [List.map_cons, List.sum_cons, List.forall_mem_cons, ← ih, ← hz b]
    constructor
    · intro h4; constructor <;> linarith
    · rintro ⟨h4, h5⟩; linarith

/-- A track that stands at the origin but was predicted one metre away. -/
noncomputable def standing (toPredict : Bool) : Track :=
  ⟨List.replicate 10 (⟨0, 0, 1, 1, 0, 0, 0⟩, true), [(⟨0, 0, 1, 1, 0, 0, 0⟩, true)], [(⟨0, 0, 1, 1, 0, 0, 0⟩, true)], toPredict⟩

/-- **C211 is violated**: objects that are not to be predicted change the loss. -/
theorem loss_violated : loss [(standing true, [(1, 0)])] = 1 / 2 ∧ loss [(standing true, [(1, 0)]), (standing false, [(1, 0)])] = 1 / 4 := by
  constructor
  · rw [loss_partial _ (by simp [standing])]
    simp [counted, standing]
  · rw [loss_partial _ (by simp [standing])]
    simp [counted, standing]
    norm_num

/-- **C211 is violated**: states that are not valid are given to the network like others, and it is not told; nothing that it is given depends on validity. -/
theorem input_violated (t u : Track) (hp : t.past.map Prod.fst = u.past.map Prod.fst) (hc : t.current.map Prod.fst = u.current.map Prod.fst) :
    t.input = u.input := by
  have : ∀ v : Track, v.input = ((v.past.map Prod.fst) ++ (v.current.map Prod.fst)).map fun s => (s.x, s.y) := by
    intro v
    simp [Track.input, Function.comp_def]
  rw [this, this, hp, hc]

/-- **C211**: a sample is marked as valid if one of the states up to the current one is. -/
theorem seen_iff (t : Track) : t.seen = true ↔ (∃ s ∈ t.past, s.2 = true) ∨ ∃ s ∈ t.current, s.2 = true := by
  simp [Track.seen]

/-! ### C212: metrics -/

/-- **C212**: the steps that are evaluated are the last ones of each interval. -/
theorem subsample_spec {A : Type} {t p : ℕ} {steps out : List A} (h : subsample t p steps = some out) :
    0 < t / p ∧ out.length = steps.length / (t / p) ∧ ∀ (k : ℕ), k < out.length → out[k]? = steps[(k + 1) * (t / p) - 1]? := by
  unfold subsample at h
  dsimp only at h
  split_ifs at h with h1 h2
  have e := Option.some.inj h
  have hpos : 0 < t / p := Nat.pos_of_ne_zero h2
  generalize t / p = n at *
  have hbound : ∀ k < steps.length / n, n - 1 + n * k < steps.length := by
    intro k hk
    have : n * (k + 1) ≤ n * (steps.length / n) := Nat.mul_le_mul_left _ hk
    have h3 := Nat.mul_div_le steps.length n
    rw [Nat.mul_add] at this
    omega
  have hm : ∀ m ≤ steps.length / n, ((List.range m).filterMap fun k => steps[(n - 1) + n * k]?).map some = (List.range m).map fun k => steps[(n - 1) + n * k]? := by
    intro m
    induction m with
    | zero => intro _; rfl
    | succ m ih =>
      intro hle
      rw [List.range_succ, List.filterMap_append, List.map_append, List.map_append, ih (by omega)]
      have := hbound m (by omega)
      simp [List.getElem?_eq_getElem this]
  have hm := hm _ le_rfl
  rw [e] at hm
  have hlen : out.length = steps.length / n := by have := congrArg List.length hm; simpa using this
  refine ⟨hpos, hlen, ?_⟩
  intro k hk
  have h3 := congrArg (fun l => l[k]?) hm
  simp only [List.getElem?_map, List.getElem?_range (hlen ▸ hk), Option.map_some] at h3
  rw [Option.map_eq_some_iff] at h3
  obtain ⟨a, h4, h5⟩ := h3
  rw [h4, h5]
  congr 1
  rw [Nat.add_mul, Nat.mul_comm]
  omega

example : subsample 10 2 (List.range 80) = some [4, 9, 14, 19, 24, 29, 34, 39, 44, 49, 54, 59, 64, 69, 74, 79] := by decide

theorem foldl_update {S : Type} : ∀ (bs : List (List S)) (m : Metrics S), (bs.foldl Metrics.update m).batches = m.batches ++ bs := by
  intro bs
  induction bs with
  | nil => intro m; simp
  | cons b bs ih => intro m; rw [List.foldl_cons, ih]; simp [Metrics.update]

/-- **C212, what holds**: the metrics of the first epoch are those of the scenarios of its batches, each once; later epochs have as many as were in all
epochs so far. -/
theorem epochs_partial {S : Type} (limit : ℕ) : ∀ (n : ℕ) (m : Metrics S) (dataset : List (List S)) (out : List (List S)),
    epochs limit n m dataset = some out → out.length = n ∧
    ∀ (k : ℕ), k < n → out[k]? = some (m.batches.flatten ++ (List.replicate (k + 1) (dataset.take (limit + 1)).flatten).flatten) := by
  intro n
  induction n with
  | zero => intro m dataset out h; have e := Option.some.inj h; subst e; simp
  | succ n ih =>
    intro m dataset out h
    unfold epochs at h
    simp only [Option.bind_eq_bind, Option.bind_eq_some_iff, Option.pure_def, Option.some.injEq] at h
    obtain ⟨shown, hs, rest, hr, rfl⟩ := h
    obtain ⟨h1, h2⟩ := ih _ _ _ hr
    have hsh : shown = m.batches.flatten ++ (dataset.take (limit + 1)).flatten := by
      unfold Metrics.all at hs
      split_ifs at hs
      rw [← Option.some.inj hs, foldl_update, List.flatten_append]
    refine ⟨by simp [h1], ?_⟩
    intro k hk
    cases k with
    | zero => rw [List.getElem?_cons_zero, hsh]; simp
    | succ k =>
      rw [List.getElem?_cons_succ, h2 k (by omega), foldl_update, List.flatten_append]
      rw [List.replicate_succ (n := k + 1), List.flatten_cons, List.append_assoc]

/-- **C212 is violated**: the metrics shown at the end of the second epoch are those of both epochs, and cannot be reset: that raises. -/
theorem epochs_violated {S : Type} (limit : ℕ) (dataset out : List (List S)) (h : epochs limit 2 Metrics.init dataset = some out) :
    out[1]? = some ((dataset.take (limit + 1)).flatten ++ (dataset.take (limit + 1)).flatten) ∧ ∀ m : Metrics S, m.reset = none := by
  refine ⟨?_, fun _ => rfl⟩
  rw [(epochs_partial limit 2 Metrics.init dataset out h).2 1 (by omega)]
  simp [Metrics.init, List.replicate_succ]

example : epochs 10 2 Metrics.init [[1, 2], [3]] = some [[1, 2, 3], [1, 2, 3, 1, 2, 3]] := by decide

/-- **C212**: the metrics can be computed if there is a batch. -/
theorem epochs_some {S : Type} (limit n : ℕ) (m : Metrics S) (dataset : List (List S)) (h : dataset ≠ []) : (epochs limit n m dataset).isSome := by
  induction n generalizing m with
  | zero => rfl
  | succ n ih =>
    unfold epochs
    have hne : ((dataset.take (limit + 1)).foldl Metrics.update m).batches ≠ [] := by
      rw [foldl_update]
      cases dataset with
      | nil => exact absurd rfl h
      | cons a l => simp
    obtain ⟨rest, hr⟩ := Option.isSome_iff_exists.1 (ih ((dataset.take (limit + 1)).foldl Metrics.update m))
    simp only [Metrics.all, if_neg hne, Option.bind_eq_bind, Option.bind_some, hr, Option.pure_def]
    rfl

/-- **C212**: the metrics of one epoch or more can be computed if and only if there is a batch. -/
theorem epochs_some_iff {S : Type} (limit n : ℕ) (dataset : List (List S)) :
    (epochs limit (n + 1) Metrics.init dataset).isSome ↔ dataset ≠ [] := by
  refine ⟨?_, epochs_some limit (n + 1) Metrics.init dataset⟩
  rintro h rfl
  simp [epochs, Metrics.init, Metrics.all] at h

/-- **C212, exactly which epochs are shown right**: the first, and all of them only if no batch has a scenario. -/
theorem epochs_right_iff {S : Type} (limit n : ℕ) (dataset out : List (List S)) (h : epochs limit n Metrics.init dataset = some out)
    {k : ℕ} (hk : k < n) : out[k]? = some (dataset.take (limit + 1)).flatten ↔ k = 0 ∨ ∀ b ∈ dataset.take (limit + 1), b = [] := by
  rw [(epochs_partial limit n Metrics.init dataset out h).2 k hk]
  simp only [Metrics.init, List.flatten_nil, List.nil_append, Option.some.injEq]
  constructor
  · intro e
    have hl := congrArg List.length e
    rw [List.length_flatten, List.map_replicate, List.sum_replicate, smul_eq_mul] at hl
    by_cases hz : ((dataset.take (limit + 1)).flatten).length = 0
    · right
      intro b hb
      exact List.flatten_eq_nil_iff.1 (List.length_eq_zero_iff.1 hz) b hb
    · left
      have : k * (dataset.take (limit + 1)).flatten.length = 0 := by
        rw [Nat.add_mul, Nat.one_mul] at hl
        omega
      exact (Nat.mul_eq_zero.1 this).resolve_right hz
  · rintro (rfl | hb)
    · simp
    · have : (dataset.take (limit + 1)).flatten = [] := List.flatten_eq_nil_iff.2 hb
      rw [this]
      simp

/-- **C212 is violated**: with batches of 32, twice as many samples are reported as were seen. -/
theorem seen_violated {S : Type} (dataset : List (List S)) (h : ∀ b ∈ dataset, b.length = 32) (step : ℕ) (hs : step < dataset.length) :
    seenSoFar step = 2 * ((dataset.take (step + 1)).flatten).length := by
  have : ((dataset.take (step + 1)).map List.length) = List.replicate (step + 1) 32 := by
    rw [List.eq_replicate_iff]
    exact ⟨by simp; omega, by intro b hb; obtain ⟨f, hf, rfl⟩ := List.mem_map.1 hb; exact h f (List.mem_of_mem_take hf)⟩
  rw [List.length_flatten, this]
  simp [seenSoFar]
  ring

end Verif.MotionTutorial
