import Verif.Props.Clouds

/-!
C148-C151: parsing the range images of a frame, its point clouds, the two versions of the functions, and the motion data set.
-/

namespace Verif.Clouds

open Verif.Boxes (V3 M4)

/-! ## Specification of parsing -/

/-- The labels of a laser whose first return is there. -/
def Labels (D : Codec) (l : Laser) (second : Bool) (g : Option (List (Raw ℤ))) : Prop :=
  (l.ret1.seg = [] ∧ (second = true → l.ret2.seg = []) ∧ g = none) ∨
  (l.ret1.seg ≠ [] ∧ (second = true → l.ret2.seg = []) ∧ ∃ a, D.ints l.ret1.seg = some a ∧ g = some [a]) ∨
  (l.ret1.seg ≠ [] ∧ second = true ∧ l.ret2.seg ≠ [] ∧
    ∃ a b, D.ints l.ret1.seg = some a ∧ D.ints l.ret2.seg = some b ∧ g = some [a, b])

/-- What there is about a laser: nothing, or the first return, or both of them, in order. -/
def Entry (D : Codec) (l : Laser) (r : Option (List (Raw ℝ))) (p g : Option (List (Raw ℤ))) : Prop :=
  (l.ret1.range = [] ∧ l.ret2.range = [] ∧ r = none ∧ p = none ∧ g = none) ∨
  (l.ret1.range ≠ [] ∧ l.ret2.range = [] ∧ Labels D l false g ∧
    ∃ a b, D.floats l.ret1.range = some a ∧ D.ints l.ret1.projection = some b ∧ r = some [a] ∧ p = some [b]) ∨
  (l.ret1.range ≠ [] ∧ l.ret2.range ≠ [] ∧ Labels D l true g ∧
    ∃ a b a' b', D.floats l.ret1.range = some a ∧ D.ints l.ret1.projection = some b ∧
      D.floats l.ret2.range = some a' ∧ D.ints l.ret2.projection = some b' ∧ r = some [a, a'] ∧ p = some [b, b'])

/-- The poses of the pixels: those of the first return of TOP. -/
def TopPose (D : Codec) (l : Laser) (before after : Raw ℝ) : Prop :=
  if l.name = 1 ∧ l.ret1.range ≠ [] then D.floats l.ret1.pose = some after else after = before

/-! ## One laser -/

theorem update_none {α : Type} {d : ℕ → Option α} {k : ℕ} (h : d k = none) : Function.update d k none = d := by
  rw [← h]; exact Function.update_eq_self k d

theorem update_id {α : Type} (d : ℕ → Option α) (k : ℕ) : Function.update d k (d k) = d := Function.update_eq_self k d

/-- What a laser adds. -/
theorem step_iff {D : Codec} {s t : Parsed} {l : Laser} (hr : s.ranges l.name = none) (hp : s.projections l.name = none)
    (hg : s.segs l.name = none) :
    ((parseFirst D s l).bind fun s => parseSecond D s l) = some t ↔
      ∃ r p g top, Entry D l r p g ∧ TopPose D l s.topPose top ∧
        t = ⟨Function.update s.ranges l.name r, Function.update s.projections l.name p, Function.update s.segs l.name g, top⟩ := by
  by_cases h1 : l.ret1.range = []
  · by_cases h2 : l.ret2.range = []
    · simp only [parseFirst, parseSecond, h1, h2, if_true, Option.bind_some, Option.some.injEq, Entry, TopPose]
      constructor
      · rintro rfl
        refine ⟨none, none, none, s.topPose, by simp, by simp, ?_⟩
        rw [update_none hr, update_none hp, update_none hg]
      · rintro ⟨r, p, g, top, he, ht, rfl⟩
        simp at he ht
        obtain ⟨rfl, rfl, rfl⟩ := he
        rw [update_none hr, update_none hp, update_none hg, ht]
    · simp only [parseFirst, parseSecond, h1, h2, if_true, if_false, Option.bind_some, Entry, append, hr]
      cases D.floats l.ret2.range <;> simp
  · cases ha : D.floats l.ret1.range with
    | none => simp [parseFirst, h1, ha, Entry]
    | some a =>
      cases hb : D.ints l.ret1.projection with
      | none =>
        simp only [parseFirst, h1, ha, hb, if_false, Entry, Option.bind_eq_bind, Option.bind_some, Option.bind_none]
        split
        · cases D.floats l.ret1.pose <;> simp
        · simp
      | some b =>
        have htop : ∀ x, (if l.name = 1 then D.floats l.ret1.pose else some s.topPose) = some x ↔ TopPose D l s.topPose x := by
          intro x
          unfold TopPose
          by_cases hn : l.name = 1
          · simp [hn, h1]
          · simp [hn, eq_comm]
        have hseg : ∀ x, (if l.ret1.seg = [] then some s.segs else (D.ints l.ret1.seg).map fun g => put s.segs l.name g) = some x ↔
            ∃ g, Labels D l false g ∧ x = Function.update s.segs l.name g := by
          intro x
          by_cases hs : l.ret1.seg = []
          · simp only [hs, if_true, Option.some.injEq, Labels]
            constructor
            · rintro rfl; exact ⟨none, by simp, (update_none hg).symm⟩
            · rintro ⟨g, hl, rfl⟩
              simp at hl; subst hl; exact (update_none hg).symm
          · simp only [hs, if_false, Labels, put, Option.map_eq_some_iff]
            constructor
            · rintro ⟨g, h, rfl⟩; exact ⟨some [g], by simp [h, hs], rfl⟩
            · rintro ⟨g, hl, rfl⟩
              simp at hl
              obtain ⟨_, c, hc, rfl⟩ := hl
              exact ⟨c, hc, rfl⟩
        have hfirst : ∀ x, parseFirst D s l = some x ↔ ∃ g top, Labels D l false g ∧ TopPose D l s.topPose top ∧
            x = ⟨Function.update s.ranges l.name (some [a]), Function.update s.projections l.name (some [b]),
              Function.update s.segs l.name g, top⟩ := by
          intro x
          have e : parseFirst D s l = (if l.name = 1 then D.floats l.ret1.pose else some s.topPose).bind fun top =>
              (if l.ret1.seg = [] then some s.segs else (D.ints l.ret1.seg).map fun g => put s.segs l.name g).bind fun segs =>
                some ⟨Function.update s.ranges l.name (some [a]), Function.update s.projections l.name (some [b]), segs, top⟩ := by
            simp only [parseFirst, h1, ha, hb, if_false, Option.bind_eq_bind, Option.bind_some, Option.pure_def, put]
            split <;> split <;> rfl
          rw [e]
          simp only [Option.bind_eq_some_iff, htop, hseg, Option.some.injEq]
          constructor
          · rintro ⟨top, ht, _, ⟨g, hg', rfl⟩, rfl⟩; exact ⟨g, top, hg', ht, rfl⟩
          · rintro ⟨g, top, hg', ht, rfl⟩; exact ⟨top, ht, _, ⟨g, hg', rfl⟩, rfl⟩
        by_cases h2 : l.ret2.range = []
        · simp only [parseSecond, h2, if_true, Option.bind_eq_some_iff, Option.some.injEq]
          constructor
          · rintro ⟨x, hx, rfl⟩
            obtain ⟨g, top, hg', ht, rfl⟩ := (hfirst x).1 hx
            exact ⟨_, _, g, top, Or.inr (Or.inl ⟨h1, h2, hg', a, b, ha, hb, rfl, rfl⟩), ht, rfl⟩
          · rintro ⟨r, p, g, top, he, ht, rfl⟩
            simp only [Entry, h1, h2, false_and, not_true, not_false_iff, true_and, ne_eq, false_or, ha, hb, Option.some.injEq, and_false, or_false] at he
            obtain ⟨hl, _, _, rfl, rfl, rfl, rfl⟩ := he
            exact ⟨_, (hfirst _).2 ⟨g, top, hl, ht, rfl⟩, rfl⟩
        · cases ha' : D.floats l.ret2.range with
          | none =>
            simp [parseSecond, h2, ha', Entry, h1]
          | some a' =>
            cases hb' : D.ints l.ret2.projection with
            | none =>
              simp only [parseSecond, h2, ha', hb', if_false, Option.bind_eq_bind, Option.bind_some, Option.bind_none, Entry, h1]
              constructor
              · intro h
                rw [Option.bind_eq_some_iff] at h
                obtain ⟨x, hx, h⟩ := h
                cases append x.ranges l.name a' <;> simp at h
              · rintro ⟨r, p, g, top, he, _⟩
                simp at he
            | some b' =>
              simp only [Option.bind_eq_some_iff]
              constructor
              · rintro ⟨x, hx, h⟩
                obtain ⟨g, top, hg', ht, rfl⟩ := (hfirst x).1 hx
                simp only [parseSecond, h2, ha', hb', if_false, Option.bind_eq_bind, Option.bind_some, append, Function.update_self,
                  Option.map_some, List.cons_append, List.nil_append, Function.update_idem] at h
                by_cases h3 : l.ret2.seg = []
                · simp only [h3, if_true, Option.bind_some, Option.pure_def, Option.some.injEq] at h
                  subst h
                  refine ⟨_, _, g, top, Or.inr (Or.inr ⟨h1, h2, ?_, a, b, a', b', ha, hb, ha', hb', rfl, rfl⟩), ht, rfl⟩
                  unfold Labels at hg' ⊢
                  simpa [h3] using hg'
                · simp only [h3, if_false] at h
                  cases hc : D.ints l.ret2.seg with
                  | none => simp [hc] at h
                  | some c =>
                    simp only [hc, Option.bind_some] at h
                    cases hgo : g with
                    | none => simp [hgo] at h
                    | some gl =>
                      simp only [hgo, Option.map_some, Option.bind_some, Option.pure_def, Option.some.injEq] at h
                      subst h
                      refine ⟨_, _, some (gl ++ [c]), top, Or.inr (Or.inr ⟨h1, h2, ?_, a, b, a', b', ha, hb, ha', hb', rfl, rfl⟩), ht, rfl⟩
                      unfold Labels at hg' ⊢
                      simp [hgo] at hg'
                      obtain ⟨hs, u, hu, rfl⟩ := hg'
                      exact Or.inr (Or.inr ⟨hs, rfl, h3, u, c, hu, hc, by simp⟩)
              · rintro ⟨r, p, g, top, he, ht, rfl⟩
                simp only [Entry, h1, h2, false_and, not_false_iff, true_and, ne_eq, false_or, ha, hb, ha', hb', Option.some.injEq] at he
                obtain ⟨hl, _, _, _, _, rfl, rfl, rfl, rfl, rfl, rfl⟩ := he
                rcases hl with ⟨hs, hs2, rfl⟩ | ⟨hs, hs2, u, hu, rfl⟩ | ⟨hs, _, hs2, u, v, hu, hv, rfl⟩
                · refine ⟨_, (hfirst _).2 ⟨none, top, Or.inl ⟨hs, by simp, rfl⟩, ht, rfl⟩, ?_⟩
                  simp [parseSecond, h2, ha', hb', append, hs2]
                · refine ⟨_, (hfirst _).2 ⟨some [u], top, Or.inr (Or.inl ⟨hs, by simp, u, hu, rfl⟩), ht, rfl⟩, ?_⟩
                  simp [parseSecond, h2, ha', hb', append, hs2]
                · refine ⟨_, (hfirst _).2 ⟨some [u], top, Or.inr (Or.inl ⟨hs, by simp, u, hu, rfl⟩), ht, rfl⟩, ?_⟩
                  simp [parseSecond, h2, ha', hb', append, hs2, hv]

/-! ## Parsing a frame -/

theorem parseLasers_cons (D : Codec) (s : Parsed) (l : Laser) (ls : List Laser) :
    parseLasers D s (l :: ls) = ((parseFirst D s l).bind fun s => parseSecond D s l).bind fun s => parseLasers D s ls := by
  rw [parseLasers]
  cases parseFirst D s l <;> rfl

theorem lasers_some {D : Codec} : ∀ {ls : List Laser} {s t : Parsed}, (ls.map Laser.name).Nodup →
    (∀ l ∈ ls, s.ranges l.name = none ∧ s.projections l.name = none ∧ s.segs l.name = none) →
    parseLasers D s ls = some t →
    (∀ l ∈ ls, Entry D l (t.ranges l.name) (t.projections l.name) (t.segs l.name)) ∧
    (∀ n, (∀ l ∈ ls, l.name ≠ n) → t.ranges n = s.ranges n ∧ t.projections n = s.projections n ∧ t.segs n = s.segs n) ∧
    (∀ l ∈ ls, l.name = 1 → l.ret1.range ≠ [] → D.floats l.ret1.pose = some t.topPose) ∧
    ((∀ l ∈ ls, l.name = 1 → l.ret1.range = []) → t.topPose = s.topPose) := by
  intro ls
  induction ls with
  | nil => intro s t _ _ h; simp only [parseLasers, Option.some.injEq] at h; subst h; simp
  | cons l ls ih =>
    intro s t hn hs h
    simp only [List.map_cons, List.nodup_cons] at hn
    obtain ⟨h1, h2, h3⟩ := hs l (by simp)
    rw [parseLasers_cons, Option.bind_eq_some_iff] at h
    obtain ⟨u, hu, h⟩ := h
    obtain ⟨r, p, g, top, he, ht, rfl⟩ := (step_iff h1 h2 h3).1 hu
    have hne : ∀ l' ∈ ls, l'.name ≠ l.name := fun l' hl e => hn.1 (e ▸ List.mem_map_of_mem hl)
    obtain ⟨a, b, c, d⟩ := ih hn.2 (fun l' hl => by
      simp only [Function.update_of_ne (hne l' hl)]; exact hs l' (by simp [hl])) h
    have hb := b l.name (fun l' hl => hne l' hl)
    simp only [Function.update_self] at hb
    refine ⟨?_, ?_, ?_, ?_⟩
    · intro l' hl
      rcases List.mem_cons.1 hl with rfl | hl
      · rw [hb.1, hb.2.1, hb.2.2]; exact he
      · exact a l' hl
    · intro n hnn
      have := b n (fun l' hl => hnn l' (by simp [hl]))
      simp only [Function.update_of_ne (hnn l (by simp)).symm] at this
      exact this
    · intro l' hl hn1 hne'
      rcases List.mem_cons.1 hl with rfl | hl
      · rw [d fun l'' hl'' e => absurd (e.trans hn1.symm) (hne l'' hl'')]
        unfold TopPose at ht; rw [if_pos ⟨hn1, hne'⟩] at ht; exact ht
      · exact c l' hl hn1 hne'
    · intro hh
      rw [d fun l' hl => hh l' (by simp [hl])]
      unfold TopPose at ht
      rw [if_neg (by rintro ⟨e1, e2⟩; exact e2 (hh l (by simp) e1))] at ht
      exact ht

/-- C148: for each laser the dictionaries hold its returns in order, and nothing else. -/
theorem parse_spec {D : Codec} {f : Frame} {s : Parsed} (hn : (f.lasers.map Laser.name).Nodup) (h : parse D f = some s) :
    (∀ l ∈ f.lasers, Entry D l (s.ranges l.name) (s.projections l.name) (s.segs l.name)) ∧
    (∀ n, (∀ l ∈ f.lasers, l.name ≠ n) → s.ranges n = none ∧ s.projections n = none ∧ s.segs n = none) ∧
    (∀ l ∈ f.lasers, l.name = 1 → l.ret1.range ≠ [] → D.floats l.ret1.pose = some s.topPose) ∧
    ((∀ l ∈ f.lasers, l.name = 1 → l.ret1.range = []) → s.topPose = {}) :=
  lasers_some hn (by simp) h

theorem lasers_exists {D : Codec} : ∀ {ls : List Laser} {s : Parsed}, (ls.map Laser.name).Nodup →
    (∀ l ∈ ls, s.ranges l.name = none ∧ s.projections l.name = none ∧ s.segs l.name = none) →
    (∀ l ∈ ls, ∃ r p g, Entry D l r p g) →
    (∀ l ∈ ls, l.name = 1 → l.ret1.range ≠ [] → ∃ t, D.floats l.ret1.pose = some t) → ∃ t, parseLasers D s ls = some t := by
  intro ls
  induction ls with
  | nil => intro s _ _ _ _; exact ⟨s, rfl⟩
  | cons l ls ih =>
    intro s hn hs he ht
    simp only [List.map_cons, List.nodup_cons] at hn
    obtain ⟨h1, h2, h3⟩ := hs l (by simp)
    have hne : ∀ l' ∈ ls, l'.name ≠ l.name := fun l' hl e => hn.1 (e ▸ List.mem_map_of_mem hl)
    obtain ⟨r, p, g, he'⟩ := he l (by simp)
    have : ∃ top, TopPose D l s.topPose top := by
      unfold TopPose
      split
      · rename_i hh; exact ht l (by simp) hh.1 hh.2
      · exact ⟨_, rfl⟩
    obtain ⟨top, ht'⟩ := this
    rw [parseLasers_cons, (step_iff h1 h2 h3).2 ⟨r, p, g, top, he', ht', rfl⟩, Option.bind_some]
    apply ih hn.2
    · intro l' hl
      simp only [Function.update_of_ne (hne l' hl)]; exact hs l' (by simp [hl])
    · exact fun l' hl => he l' (by simp [hl])
    · exact fun l' hl => ht l' (by simp [hl])

/-- All strings that are there can be decoded. -/
def Decodable (D : Codec) (l : Laser) : Prop :=
  (∀ r ∈ [l.ret1, l.ret2], r.range ≠ [] → (D.floats r.range).isSome ∧ (D.ints r.projection).isSome) ∧
  (∀ r ∈ [l.ret1, l.ret2], r.seg ≠ [] → (D.ints r.seg).isSome) ∧
  (l.name = 1 → l.ret1.range ≠ [] → (D.floats l.ret1.pose).isSome)

/-- C148: a frame is parsed if, besides, no laser has a second return, or labels of it, without the first. -/
theorem parse_total_partial {D : Codec} {f : Frame} (hn : (f.lasers.map Laser.name).Nodup) (hd : ∀ l ∈ f.lasers, Decodable D l)
    (hr : ∀ l ∈ f.lasers, l.ret2.range ≠ [] → l.ret1.range ≠ [])
    (hs : ∀ l ∈ f.lasers, l.ret2.range ≠ [] → l.ret2.seg ≠ [] → l.ret1.seg ≠ []) : ∃ s, parse D f = some s := by
  refine lasers_exists hn (by simp) ?_ fun l hl h1 h2 => Option.isSome_iff_exists.1 ((hd l hl).2.2 h1 h2)
  intro l hl
  obtain ⟨d1, d2, _⟩ := hd l hl
  by_cases h1 : l.ret1.range = []
  · have h2 : l.ret2.range = [] := by by_contra h; exact hr l hl h h1
    exact ⟨none, none, none, Or.inl ⟨h1, h2, rfl, rfl, rfl⟩⟩
  · obtain ⟨a, ha⟩ := Option.isSome_iff_exists.1 (d1 l.ret1 (by simp) h1).1
    obtain ⟨b, hb⟩ := Option.isSome_iff_exists.1 (d1 l.ret1 (by simp) h1).2
    by_cases h2 : l.ret2.range = []
    · have : ∃ g, Labels D l false g := by
        by_cases hs1 : l.ret1.seg = []
        · exact ⟨none, Or.inl ⟨hs1, by simp, rfl⟩⟩
        · obtain ⟨u, hu⟩ := Option.isSome_iff_exists.1 (d2 l.ret1 (by simp) hs1)
          exact ⟨_, Or.inr (Or.inl ⟨hs1, by simp, u, hu, rfl⟩)⟩
      obtain ⟨g, hg⟩ := this
      exact ⟨_, _, g, Or.inr (Or.inl ⟨h1, h2, hg, a, b, ha, hb, rfl, rfl⟩)⟩
    · obtain ⟨a', ha'⟩ := Option.isSome_iff_exists.1 (d1 l.ret2 (by simp) h2).1
      obtain ⟨b', hb'⟩ := Option.isSome_iff_exists.1 (d1 l.ret2 (by simp) h2).2
      have : ∃ g, Labels D l true g := by
        by_cases hs2 : l.ret2.seg = []
        · by_cases hs1 : l.ret1.seg = []
          · exact ⟨none, Or.inl ⟨hs1, fun _ => hs2, rfl⟩⟩
          · obtain ⟨u, hu⟩ := Option.isSome_iff_exists.1 (d2 l.ret1 (by simp) hs1)
            exact ⟨_, Or.inr (Or.inl ⟨hs1, fun _ => hs2, u, hu, rfl⟩)⟩
        · have hs1 := hs l hl h2 hs2
          obtain ⟨u, hu⟩ := Option.isSome_iff_exists.1 (d2 l.ret1 (by simp) hs1)
          obtain ⟨v, hv⟩ := Option.isSome_iff_exists.1 (d2 l.ret2 (by simp) hs2)
          exact ⟨_, Or.inr (Or.inr ⟨hs1, rfl, hs2, u, v, hu, hv, rfl⟩)⟩
      obtain ⟨g, hg⟩ := this
      exact ⟨_, _, g, Or.inr (Or.inr ⟨h1, h2, hg, a, b, a', b', ha, hb, ha', hb', rfl, rfl⟩)⟩

/-- C148 fails: strings that can be decoded are not enough.  A laser that has only a second return, and one whose first return has no
labels while the second has, raise a KeyError. -/
theorem parse_total_violated : ∃ D : Codec, ∃ f g : Frame,
    (f.lasers.map Laser.name).Nodup ∧ (∀ l ∈ f.lasers, Decodable D l) ∧ parse D f = none ∧
    (g.lasers.map Laser.name).Nodup ∧ (∀ l ∈ g.lasers, Decodable D l) ∧ (∀ l ∈ g.lasers, l.ret2.range ≠ [] → l.ret1.range ≠ []) ∧
    parse D g = none := by
  refine ⟨⟨fun _ => some ⟨[], [0, 0, 4]⟩, fun _ => some ⟨[], [0, 0, 6]⟩⟩,
    ⟨[], [{ name := 2, ret2 := { range := [1] } }], []⟩,
    ⟨[], [{ name := 2, ret1 := { range := [1] }, ret2 := { range := [1], seg := [1] } }], []⟩, ?_, ?_, ?_, ?_, ?_, ?_, ?_⟩ <;>
    simp [Decodable, parse, parseLasers, parseFirst, parseSecond, append, put]

/-- A frame with two lasers, one of them with both returns. -/
example : ∃ D : Codec, ∃ f : Frame, ∃ s, parse D f = some s ∧ (f.lasers.map Laser.name).Nodup ∧ f.lasers.length = 2 ∧
    (s.ranges 1).map List.length = some 2 ∧ (s.ranges 2).map List.length = some 1 := by
  refine ⟨⟨fun _ => some ⟨[], [0, 0, 4]⟩, fun _ => some ⟨[], [0, 0, 6]⟩⟩,
    ⟨[], [{ name := 1, ret1 := { range := [1] }, ret2 := { range := [1] } }, { name := 2, ret1 := { range := [1] } }], []⟩, ?_⟩
  simp [parse, parseLasers, parseFirst, parseSecond, append, put]

/-! ## Clouds of a frame -/

theorem dict_get {α β : Type} {g : α → Option β} {name : α → ℕ} : ∀ {cs : List α} {d d' : ℕ → Option β}, (cs.map name).Nodup →
    (cs.foldlM (fun d c => do
      let x ← g c
      pure (Function.update d (name c) (some x))) d) = some d' →
    (∀ c ∈ cs, ∃ x, g c = some x ∧ d' (name c) = some x) ∧ ∀ n, (∀ c ∈ cs, name c ≠ n) → d' n = d n := by
  intro cs
  induction cs with
  | nil => intro d d' _ h; simp at h; subst h; simp
  | cons c cs ih =>
    intro d d' hn h
    simp only [List.map_cons, List.nodup_cons] at hn
    rw [List.foldlM_cons] at h
    cases hc : g c with
    | none => simp [hc] at h
    | some x =>
      simp only [hc, Option.bind_eq_bind, Option.bind_some, Option.pure_def] at h
      obtain ⟨a, b⟩ := ih hn.2 h
      have hne : ∀ c' ∈ cs, name c' ≠ name c := fun c' hl e => hn.1 (e ▸ List.mem_map_of_mem hl)
      refine ⟨?_, ?_⟩
      · intro c' hl
        rcases List.mem_cons.1 hl with rfl | hl
        · exact ⟨x, hc, by rw [b _ hne, Function.update_self]⟩
        · exact a c' hl
      · intro n hnn
        rw [b n fun c' hl => hnn c' (by simp [hl]), Function.update_of_ne (hnn c (by simp)).symm]

/-- What is computed for a calibration. -/
structure Computed (f : Frame) (s : Parsed) (index : ℕ) (keep : Bool) (c : Calibration) (rows : List (List ℝ)) (projs : List (List ℤ)) where
  ri : Raw ℝ
  x : Image ℝ
  cp : Raw ℤ
  y : Image ℤ
  frame : M4
  top : Image ℝ
  extrinsic : M4
  pts : List (List V3)
  hri : (s.ranges c.name).bind (fun l => l[index]?) = some ri
  hcp : (s.projections c.name).bind (fun l => l[index]?) = some cp
  hx : reshape ri = some x
  hy : reshape cp = some y
  hframe : matrix f.pose = some frame
  htop : poses s.topPose = some top
  hext : matrix c.extrinsic = some extrinsic
  hpts : cartesian x extrinsic (rowInclinations c.beams c.lo c.hi x.h) (if c.name = 1 then some top else none)
    (if c.name = 1 then some frame else none) = some pts
  hrows : gather (withPolar keep x pts) (hits x) = some rows
  hprojs : gatherImage y (hits x) = some projs

theorem rowInclinations_height {beams : List ℝ} {lo hi : ℝ} {a b : ℕ} (h : beams = [] → a = b) :
    rowInclinations beams lo hi a = rowInclinations beams lo hi b := by
  unfold rowInclinations
  by_cases hb : beams = []
  · rw [h hb]
  · simp [hb]

theorem computed {f : Frame} {s : Parsed} {index : ℕ} {keep : Bool} {clouds : List (List (List ℝ))} {projs : List (List (List ℤ))}
    (hn : (f.calibrations.map Calibration.name).Nodup) (h : toCloud f s index keep = some (clouds, projs)) :
    ∃ rs, List.Forall₂ (fun c (r : List (List ℝ) × List (List ℤ)) => Nonempty (Computed f s index keep c r.1 r.2))
      (f.calibrations.insertionSort fun a b => a.name ≤ b.name) rs ∧ clouds = rs.map Prod.fst ∧ projs = rs.map Prod.snd := by
  unfold toCloud at h
  simp only [Option.bind_eq_bind, Option.bind_eq_some_iff, Option.pure_def, Option.some.injEq, Prod.mk.injEq] at h
  obtain ⟨images, hi, rs, hrs, rfl, rfl⟩ := h
  refine ⟨rs, ?_, rfl, rfl⟩
  unfold toCartesian at hi
  simp only [Option.bind_eq_bind, Option.bind_eq_some_iff] at hi
  obtain ⟨F, hF, top, htop, hfold⟩ := hi
  obtain ⟨hget, _⟩ := dict_get hn hfold
  refine ListM.forall₂_imp_mem (ListM.mapM_forall₂ hrs) ?_
  rintro c hc ⟨rows, pr⟩ _ hr
  have hc : c ∈ f.calibrations := (List.mem_insertionSort _).1 hc
  obtain ⟨img, h1, h2⟩ := hget c hc
  unfold cloudOf at hr
  simp only [Option.bind_eq_bind, Option.bind_eq_some_iff, Option.pure_def, Option.some.injEq, Prod.mk.injEq, h2] at hr
  obtain ⟨l, hl, ri, hri, x, hx, img', rfl, rows', hrows, cl, hcl, cp, hcp, y, hy, pr', hpr, rfl, rfl⟩ := hr
  unfold cartesianOf at h1
  simp only [hl, hri, hx, Option.bind_eq_bind, Option.bind_some] at h1
  have key : ∃ height, (c.beams = [] → height = x.h) ∧ (do
      let extrinsic ← matrix c.extrinsic
      let points ← cartesian x extrinsic (rowInclinations c.beams c.lo c.hi height) (if c.name = 1 then some top else none)
        (if c.name = 1 then some F else none)
      some (withPolar keep x points)) = some img := by
    by_cases hb : c.beams = []
    · have := (reshape_some hx).1
      simp [hb, this] at h1
      exact ⟨x.h, fun _ => rfl, by simpa [hb] using h1⟩
    · simp [hb] at h1
      exact ⟨0, fun h => absurd h hb, by simpa using h1⟩
  obtain ⟨height, hh, h1⟩ := key
  rw [rowInclinations_height hh] at h1
  simp only [Option.bind_eq_bind, Option.bind_eq_some_iff, Option.some.injEq] at h1
  obtain ⟨E, hE, pts, hpts, rfl⟩ := h1
  exact ⟨⟨ri, x, cp, y, F, top, E, pts, by simp [hl, hri], by simp [hcl, hcp], hx, hy, hF, htop, hE, hpts, hrows, hpr⟩⟩

/-- The range image and the projections of a return of a laser; returns are numbered from zero. -/
def IsReturn (D : Codec) (l : Laser) (index : ℕ) (m : Raw ℝ) (cp : Raw ℤ) : Prop :=
  (index = 0 ∧ l.ret1.range ≠ [] ∧ D.floats l.ret1.range = some m ∧ D.ints l.ret1.projection = some cp) ∨
  (index = 1 ∧ l.ret2.range ≠ [] ∧ D.floats l.ret2.range = some m ∧ D.ints l.ret2.projection = some cp)

theorem entry_return {D : Codec} {l : Laser} {r : Option (List (Raw ℝ))} {p g : Option (List (Raw ℤ))} (h : Entry D l r p g) {index : ℕ}
    {m : Raw ℝ} {cp : Raw ℤ} (hm : r.bind (fun l => l[index]?) = some m) (hc : p.bind (fun l => l[index]?) = some cp) :
    IsReturn D l index m cp ∧ l.ret1.range ≠ [] := by
  rcases h with ⟨_, _, rfl, _, _⟩ | ⟨h1, h2, _, a, b, ha, hb, rfl, rfl⟩ | ⟨h1, h2, _, a, b, a', b', ha, hb, ha', hb', rfl, rfl⟩
  · simp at hm
  · match index with
    | 0 => simp at hm hc; subst hm hc; exact ⟨Or.inl ⟨rfl, h1, ha, hb⟩, h1⟩
    | n + 1 => simp at hm
  · match index with
    | 0 => simp at hm hc; subst hm hc; exact ⟨Or.inl ⟨rfl, h1, ha, hb⟩, h1⟩
    | 1 => simp at hm hc; subst hm hc; exact ⟨Or.inr ⟨rfl, h2, ha', hb'⟩, h1⟩
    | n + 2 => simp at hm

/-- The point of a pixel of a laser of a frame: pixels of TOP (whose name is 1) have poses of their own. -/
def LaserPoint (D : Codec) (f : Frame) (l : Laser) (c : Calibration) (m : Raw ℝ) (frame : M4) (p : ℕ × ℕ) (q : V3) : Prop :=
  ∃ e, IsMatrix c.extrinsic e ∧
    if c.name = 1 then ∃ pm, D.floats l.ret1.pose = some pm ∧ IsPosedPoint m c.beams c.lo c.hi e pm frame p q
    else IsPoint m c.beams c.lo c.hi e p q

theorem laser_of {D : Codec} {f : Frame} {s : Parsed} (hl : (f.lasers.map Laser.name).Nodup) (hs : parse D f = some s) {n : ℕ}
    {index : ℕ} {m : Raw ℝ} {cp : Raw ℤ} (hm : (s.ranges n).bind (fun l => l[index]?) = some m)
    (hc : (s.projections n).bind (fun l => l[index]?) = some cp) :
    ∃ l ∈ f.lasers, l.name = n ∧ IsReturn D l index m cp ∧ (n = 1 → D.floats l.ret1.pose = some s.topPose) := by
  obtain ⟨p1, p2, p3, _⟩ := parse_spec hl hs
  by_cases hex : ∃ l ∈ f.lasers, l.name = n
  · obtain ⟨l, hl', rfl⟩ := hex
    obtain ⟨h1, h2⟩ := entry_return (p1 l hl') hm hc
    exact ⟨l, hl', rfl, h1, fun h => p3 l hl' h h2⟩
  · push Not at hex
    rw [(p2 n hex).1] at hm; simp at hm

/-- C149: the clouds of a frame, in the order of the names of the lasers. -/
theorem frame_clouds {D : Codec} {f : Frame} {s : Parsed} {index : ℕ} {keep : Bool} {clouds : List (List (List ℝ))}
    {projs : List (List (List ℤ))} (hl : (f.lasers.map Laser.name).Nodup) (hn : (f.calibrations.map Calibration.name).Nodup)
    (hs : parse D f = some s) (hF : ∀ F, IsMatrix f.pose F → Affine F) (h : toCloud f s index keep = some (clouds, projs)) :
    ∃ cs F, cs.Perm f.calibrations ∧ cs.Pairwise (fun a b => a.name < b.name) ∧ IsMatrix f.pose F ∧
      List.Forall₂ (fun c (r : List (List ℝ) × List (List ℤ)) => ∃ l ∈ f.lasers, l.name = c.name ∧
        ∃ m cp, IsReturn D l index m cp ∧ IsCloud keep m (LaserPoint D f l c m F) r.1 ∧ IsProjections m cp r.2)
        cs (clouds.zip projs) ∧ clouds.length = projs.length := by
  obtain ⟨rs, h1, rfl, rfl⟩ := computed hn h
  have hp := List.perm_insertionSort (fun a b : Calibration => a.name ≤ b.name) f.calibrations
  have hF' : ∃ F, matrix f.pose = some F := by
    unfold toCloud toCartesian at h
    cases hm : matrix f.pose with
    | none => simp [hm] at h
    | some F => exact ⟨F, rfl⟩
  obtain ⟨F, hF'⟩ := hF'
  refine ⟨_, F, hp, ?_, matrix_some hF', ?_, by simp⟩
  · have hs' : (f.calibrations.insertionSort fun a b => a.name ≤ b.name).Pairwise fun a b => a.name ≤ b.name :=
      List.pairwise_insertionSort _ _
    have hnd : ((f.calibrations.insertionSort fun a b => a.name ≤ b.name).map Calibration.name).Nodup := (hp.map _).nodup_iff.2 hn
    rw [List.Nodup, List.pairwise_map] at hnd
    exact hs'.imp₂ (fun _ _ a b => lt_of_le_of_ne a b) hnd
  · rw [show (rs.map Prod.fst).zip (rs.map Prod.snd) = rs by
      clear h1 h; induction rs with
      | nil => rfl
      | cons a l ih => simp [ih]]
    refine h1.imp ?_
    rintro c ⟨rows, pr⟩ ⟨k⟩
    obtain ⟨l, hl1, hl2, hl3, hl4⟩ := laser_of hl hs k.hri k.hcp
    have e : k.frame = F := by have := k.hframe; rw [hF'] at this; exact (Option.some.inj this).symm
    have h0 := (cartesian_shape k.hpts).1
    refine ⟨l, hl1, hl2, k.ri, k.cp, hl3, ?_, gather_projections k.hx h0 k.hy k.hprojs⟩
    apply gather_rows k.hx h0 (pts := k.pts) _ k.hrows
    intro p hr hc
    have hpts := k.hpts
    by_cases h1 : c.name = 1
    · simp only [h1, if_true] at hpts
      obtain ⟨q, hq, hqp⟩ := cartesian_posed k.hx k.htop (hF _ (matrix_some k.hframe)) hpts hr hc
      refine ⟨q, hq, k.extrinsic, matrix_some k.hext, ?_⟩
      rw [if_pos h1]
      exact ⟨_, hl4 h1, e ▸ hqp⟩
    · simp only [h1, if_false] at hpts
      obtain ⟨q, hq, hqp⟩ := cartesian_point k.hx hpts hr hc
      refine ⟨q, hq, k.extrinsic, matrix_some k.hext, ?_⟩
      rw [if_neg h1]; exact hqp

end Verif.Clouds
