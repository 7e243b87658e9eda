import Mathlib.Tactic.Linarith
import Mathlib.Tactic.IntervalCases
import Mathlib.Data.List.Forall2
import Mathlib.Data.List.Pairwise
import Mathlib.Data.List.Induction
import Verif.Lemmas.ListM
import Verif.Model.PvpsTutorial

/-! Properties of the code of tutorial/tutorial_2d_pvps.ipynb (C207, C208, C209). -/

namespace Verif.PvpsTutorial

open Verif.ListM

variable {L J : Type}

/-! ### C207: labelled frames and their labels -/

/-- Specification: the frame counts as labelled if its first image is. -/
def Frame.labelled (f : Frame L J) : Bool := (f.images.head?.map Image.labelled).getD false

/-- Specification: the sequence of the first image. -/
def Frame.sequence (f : Frame L J) : Option String := f.images.head?.map Image.sequence

theorem collect_aux : ∀ (frames found : List (Frame L J)) (sequence : Option String) (out : List (Frame L J)),
    collect found sequence frames = some out → found.length ≤ 2 → (sequence = none ↔ found = []) → (∀ f ∈ found, f.sequence = sequence) →
    ∃ extra rest, out = found ++ extra ∧ frames.filter Frame.labelled = extra ++ rest ∧ out.length ≤ 3 ∧
      (∃ s, ∀ f ∈ out.dropLast, f.sequence = some s) ∧ (out.length ≤ 2 → (∀ f ∈ out, f.sequence = (out.head?.bind Frame.sequence)) → rest = []) ∧
      (frames.filter Frame.labelled ≠ [] → extra ≠ []) := by
  intro frames
  induction frames with
  | nil =>
    intro found sequence out h hl hs hf
    have e := Option.some.inj h
    subst e
    refine ⟨[], [], by simp, by simp, by omega, ?_, fun _ _ => rfl, by simp⟩
    cases sequence with
    | none => exact ⟨"", by rw [(hs.1 rfl)]; simp⟩
    | some s => exact ⟨s, fun f hf' => hf f (List.dropLast_subset _ hf')⟩
  | cons f frames ih =>
    intro found sequence out h hl hs hf
    unfold collect at h
    simp only [Option.bind_eq_bind, Option.bind_eq_some_iff] at h
    obtain ⟨image, hi, h⟩ := h
    have hhead : f.images.head? = some image := by rw [List.head?_eq_getElem?]; exact hi
    have hseq : f.sequence = some image.sequence := by simp [Frame.sequence, hhead]
    by_cases hlab : image.labelled = true
    · have hfl : f.labelled = true := by simp [Frame.labelled, hhead, hlab]
      rw [if_pos hlab] at h
      rw [List.filter_cons_of_pos hfl]
      have hpre : ∃ s, ∀ g ∈ found, g.sequence = some s := by
        cases sequence with
        | none => exact ⟨"", by rw [(hs.1 rfl)]; simp⟩
        | some s => exact ⟨s, hf⟩
      by_cases hstop : image.sequence ≠ sequence.getD image.sequence ∨ 2 < (found ++ [f]).length
      · rw [if_pos hstop] at h
        have e := Option.some.inj h
        subst e
        refine ⟨[f], frames.filter Frame.labelled, rfl, rfl, by simp; omega, ?_, ?_, by simp⟩
        · rw [List.dropLast_concat]; exact hpre
        · intro h2 hall
          exfalso
          rcases hstop with hne | h3
          · cases sequence with
            | none => simp at hne
            | some s =>
              have hfound : found ≠ [] := fun e => by simpa using hs.2 e
              obtain ⟨g, gs, rfl⟩ := List.exists_cons_of_ne_nil hfound
              have := hall f (by simp)
              simp only [List.cons_append, List.head?_cons, Option.bind_some] at this
              rw [hseq, hf g (by simp)] at this
              simp at hne
              exact hne (Option.some.inj this)
          · omega
      · rw [if_neg hstop] at h
        push Not at hstop
        have hlen : (found ++ [f]).length ≤ 2 := hstop.2
        obtain ⟨extra, rest, e1, e2, e3, e4, e5, e6⟩ := ih (found ++ [f]) _ out h hlen (by simp) (by
          intro g hg
          rcases List.mem_append.1 hg with hg | hg
          · cases hse : sequence with
            | none => rw [hs.1 hse] at hg; simp at hg
            | some s => rw [hf g hg, hse]; rfl
          · rw [List.mem_singleton.1 hg, hseq]; exact congrArg some hstop.1)
        exact ⟨f :: extra, rest, by rw [e1]; simp, by rw [e2]; simp, e3, e4, e5, by simp⟩
    · have hfl : ¬ f.labelled = true := by simp [Frame.labelled, hhead, hlab]
      rw [if_neg hlab] at h
      rw [List.filter_cons_of_neg hfl]
      exact ih found sequence out h hl hs hf

/-- **C207, what holds**: the frames collected are the first labelled ones, three at most; all but the last are of one sequence, and they are all that there
are if they are fewer than three of one sequence. -/
theorem collect_partial {frames out : List (Frame L J)} (h : collect [] none frames = some out) :
    ∃ rest, frames.filter Frame.labelled = out ++ rest ∧ out.length ≤ 3 ∧ (∃ s, ∀ f ∈ out.dropLast, f.sequence = some s) ∧
      (out.length ≤ 2 → (∀ f ∈ out, f.sequence = (out.head?.bind Frame.sequence)) → rest = []) ∧ (frames.filter Frame.labelled ≠ [] → out ≠ []) := by
  obtain ⟨extra, rest, e1, e2, e3, e4, e5, e6⟩ := collect_aux frames [] none out h (by simp) (by simp) (by simp)
  rw [List.nil_append] at e1
  subst e1
  exact ⟨rest, e2, e3, e4, e5, e6⟩

/-- Frames all of which have images can be searched. -/
theorem collect_total : ∀ (frames found : List (Frame L J)) (sequence : Option String), (∀ f ∈ frames, f.images ≠ []) →
    (collect found sequence frames).isSome := by
  intro frames
  induction frames with
  | nil => intro found sequence _; rfl
  | cons f frames ih =>
    intro found sequence h
    obtain ⟨image, images, e⟩ := List.exists_cons_of_ne_nil (h f (by simp))
    have h2 : ∀ g ∈ frames, g.images ≠ [] := fun g hg => h g (by simp [hg])
    unfold collect
    rw [e]
    simp only [List.getElem?_cons_zero, Option.bind_eq_bind, Option.bind_some]
    split_ifs
    · rfl
    · exact ih _ _ h2
    · exact ih _ _ h2

/-- A labelled frame of a sequence. -/
def one (s : String) (t : ℕ) : Frame ℕ ℕ := ⟨"c", t, [⟨1, t, true, s, 0⟩]⟩

/-- **C207 is violated**: the frame that ends the search because it is of another sequence is collected as well. -/
theorem collect_violated : ∃ frames out : List (Frame ℕ ℕ), collect [] none frames = some out ∧
    ∃ f ∈ out, ∃ g ∈ out, f.sequence ≠ g.sequence :=
  ⟨[one "a" 1, one "b" 2], [one "a" 1, one "b" 2], rfl, one "a" 1, by simp, one "b" 2, by simp, by decide⟩

/-- A dictionary of different keys. -/
theorem lookup_spec {V : Type} {pairs : List (ℕ × V)} (hn : (pairs.map Prod.fst).Nodup) (k : ℕ) (v : V) :
    lookup pairs k = some v ↔ (k, v) ∈ pairs := by
  unfold lookup
  constructor
  · intro h
    rw [Option.map_eq_some_iff] at h
    obtain ⟨p, hp, rfl⟩ := h
    have h1 := List.mem_of_find?_eq_some hp
    have h2 := List.find?_some hp
    have h2 : p.1 = k := by simpa using h2
    rw [← h2]
    simpa using h1
  · intro h
    have hs : (pairs.reverse.find? fun p => decide (p.1 = k)).isSome := by
      rw [List.find?_isSome]; exact ⟨(k, v), by simpa using h, by simp⟩
    obtain ⟨p, hp⟩ := Option.isSome_iff_exists.1 hs
    rw [hp]
    have h1 := List.mem_of_find?_eq_some hp
    have h2 : p.1 = k := by simpa using List.find?_some hp
    have := List.inj_on_of_nodup_map hn (by simpa using h1) h (by simpa using h2)
    rw [this]; rfl

/-- **C207**: the values of a frame are ordered from the left to the right camera. -/
theorem ordered_spec {V : Type} {pairs : List (ℕ × V)} (hn : (pairs.map Prod.fst).Nodup) (out : List V) :
    ordered pairs = some out ↔ ∃ sl fl f fr sr, out = [sl, fl, f, fr, sr] ∧ (4, sl) ∈ pairs ∧ (2, fl) ∈ pairs ∧ (1, f) ∈ pairs ∧ (3, fr) ∈ pairs ∧
      (5, sr) ∈ pairs := by
  unfold ordered order
  simp only [List.mapM_cons, List.mapM_nil, Option.bind_eq_bind, Option.bind_eq_some_iff, Option.pure_def, Option.some.injEq, lookup_spec hn]
  constructor
  · rintro ⟨a, ha, _, ⟨b, hb, _, ⟨c, hc, _, ⟨d, hd, _, ⟨e, he, _, rfl, rfl⟩, rfl⟩, rfl⟩, rfl⟩, rfl⟩
    exact ⟨a, b, c, d, e, rfl, ha, hb, hc, hd, he⟩
  · rintro ⟨a, b, c, d, e, rfl, ha, hb, hc, hd, he⟩
    exact ⟨a, ha, _, ⟨b, hb, _, ⟨c, hc, _, ⟨d, hd, _, ⟨e, he, _, rfl, rfl⟩, rfl⟩, rfl⟩, rfl⟩, rfl⟩

/-- **C207 is violated**: what is decoded as the label of the front camera is always that of the front left camera. -/
theorem front_violated {frame : Frame L J} {frames : List (Frame L J)} {protos : List (List L)} (hn : (frame.images.map Image.name).Nodup)
    (h : protosOrdered (frame :: frames) = some protos) {label : L} (hf : front protos = some label) :
    ∃ i ∈ frame.images, i.name = 2 ∧ i.label = label := by
  have h2 := mapM_forall₂ h
  cases h2 with
  | cons h3 h4 =>
    rename_i first rest
    have hn2 : ((frame.images.map fun i => (i.name, i.label)).map Prod.fst).Nodup := by rw [List.map_map]; exact hn
    obtain ⟨sl, fl, f, fr, sr, rfl, _, hfl, _⟩ := (ordered_spec hn2 _).1 h3
    unfold front at hf
    simp only [List.getElem?_cons_zero, Option.bind_eq_bind, Option.bind_some, List.getElem?_cons_succ, Option.some.injEq] at hf
    subst hf
    obtain ⟨i, hi, e⟩ := List.mem_map.1 hfl
    rw [Prod.mk.injEq] at e
    exact ⟨i, hi, e.1, e.2⟩

/-- A frame with all five cameras, labelled by their numbers. -/
def five : Frame ℕ ℕ := ⟨"c", 1, [1, 2, 3, 4, 5].map fun k => ⟨k, k, true, "s", 0⟩⟩

example : protosOrdered [five] = some [[4, 2, 1, 3, 5]] ∧ front [[4, 2, 1, 3, 5]] = some 2 := by decide

/-- **C207, what holds**: the row that the global variable names is split into one dictionary per label, with the values of all columns and the keys. -/
theorem ungroup_partial {V : Type} (row : List (String × List V)) (keys : List (String × V)) {n : ℕ} (hne : row ≠ []) (hn : ∀ c ∈ row, c.2.length = n) :
    (ungroup row keys row).length = n ∧ ∀ (i : ℕ), i < n → ∃ vs : List V, List.Forall₂ (fun c v => c.2[i]? = some v) row vs ∧
      (ungroup row keys row)[i]? = some ((row.map Prod.fst).zip vs ++ keys) := by
  obtain ⟨c, cs, rfl⟩ := List.exists_cons_of_ne_nil hne
  have hmin : (((c :: cs).map fun c => c.2.length).foldl min ((c :: cs).head?.elim 0 fun c => c.2.length)) = n := by
    have : ∀ l : List (String × List V), (∀ c ∈ l, c.2.length = n) → (l.map fun c => c.2.length).foldl min n = n := by
      intro l
      induction l with
      | nil => intro _; rfl
      | cons a l ih => intro h; simp only [List.map_cons, List.foldl_cons]; rw [h a (by simp), min_self]; exact ih fun c hc => h c (by simp [hc])
    simp only [List.head?_cons, Option.elim_some]
    rw [hn c (by simp)]
    exact this _ hn
  unfold ungroup
  simp only
  rw [hmin]
  refine ⟨by simp, ?_⟩
  intro i hi
  have : ∀ l : List (String × List V), (∀ c ∈ l, c.2.length = n) → ∃ vs : List V, List.Forall₂ (fun c v => c.2[i]? = some v) l vs ∧
      (l.filterMap fun c => c.2[i]?.map fun v => (c.1, v)) = (l.map Prod.fst).zip vs := by
    intro l
    induction l with
    | nil => intro _; exact ⟨[], List.Forall₂.nil, rfl⟩
    | cons a l ih =>
      intro h
      obtain ⟨vs, h1, h2⟩ := ih fun c hc => h c (by simp [hc])
      have hi2 : i < a.2.length := by rw [h a (by simp)]; exact hi
      refine ⟨a.2[i] :: vs, List.Forall₂.cons (List.getElem?_eq_getElem hi2) h1, ?_⟩
      rw [List.filterMap_cons]
      simp [h2, List.getElem?_eq_getElem hi2]
  obtain ⟨vs, h1, h2⟩ := this _ hn
  exact ⟨vs, h1, by rw [List.getElem?_map, List.getElem?_range hi, Option.map_some, h2]⟩

/-- **C207 is violated**: the row that is given does not matter. -/
theorem ungroup_violated {V : Type} (r row row' : List (String × List V)) (keys : List (String × V)) : ungroup r keys row = ungroup r keys row' := rfl

/-! ### C208: the panorama -/

theorem pad_spec {w : ℕ} {label out : List (List ℕ)} (h : pad w label = some out) : label.length ≤ 1280 ∧ out.length = 1280 ∧
    (∀ (y : ℕ), y < 1280 - label.length → out[y]? = some (List.replicate w 0)) ∧
    ∀ (y : ℕ), y < label.length → out[1280 - label.length + y]? = label[y]? := by
  unfold pad at h
  split_ifs at h with hh
  have e := Option.some.inj h
  subst e
  refine ⟨by omega, by simp; omega, ?_, ?_⟩
  · intro y hy
    rw [List.getElem?_append_left (by simpa using hy), List.getElem?_replicate, if_pos hy]
  · intro y hy
    rw [List.getElem?_append_right (by simp)]
    simp

theorem flatten_at {A : Type} : ∀ (l : List (List A)) (j x : ℕ) (row : List A), l[j]? = some row → x < row.length →
    l.flatten[((l.take j).map List.length).sum + x]? = row[x]? := by
  intro l
  induction l with
  | nil => intro j x row h; simp at h
  | cons a l ih =>
    intro j x row h hx
    cases j with
    | zero =>
      have e : a = row := by simpa using h
      subst e
      simp [List.getElem?_append_left hx]
    | succ j =>
      have := ih j x row (by simpa using h) hx
      simp only [List.take_succ_cons, List.map_cons, List.sum_cons, List.flatten_cons]
      rw [List.getElem?_append_right (by omega), show a.length + ((l.take j).map List.length).sum + x - a.length = ((l.take j).map List.length).sum + x by omega]
      exact this

/-- **C208**: the pictures of a frame are beside each other with their lower edges in line: pixel `(y, x)` of picture `j` is that many columns to the right
as the pictures before are wide; what is above a picture is 0. -/
theorem strip_spec {labels : List (ℕ × List (List ℕ))} (hw : ∀ l ∈ labels, ∀ row ∈ l.2, row.length = l.1) {out : List (List ℕ)}
    (h : strip labels = some out) : out.length = 1280 ∧ (∀ row ∈ out, row.length = (labels.map Prod.fst).sum) ∧
    ∀ (j : ℕ) l, labels[j]? = some l → l.2.length ≤ 1280 ∧ ∀ (x : ℕ), x < l.1 →
      (∀ (y : ℕ) row, l.2[y]? = some row → ∃ r, out[1280 - l.2.length + y]? = some r ∧ r[((labels.take j).map Prod.fst).sum + x]? = row[x]?) ∧
      (∀ (y : ℕ), y < 1280 - l.2.length → ∃ r, out[y]? = some r ∧ r[((labels.take j).map Prod.fst).sum + x]? = some 0) := by
  unfold strip at h
  simp only [Option.bind_eq_bind, Option.bind_eq_some_iff, Option.pure_def, Option.some.injEq] at h
  obtain ⟨padded, hp, rfl⟩ := h
  have hf := mapM_forall₂ hp
  have hlen : padded.length = labels.length := hf.length_eq.symm
  have hpad : ∀ (j : ℕ) (h1 : j < labels.length) (h2 : j < padded.length), pad labels[j].1 labels[j].2 = some padded[j] := by
    intro j h1 h2
    have := (List.forall₂_iff_get.1 hf).2 j h1 h2
    simpa using this
  have hrow : ∀ (y : ℕ), y < 1280 → (padded.map fun l => (l[y]?).getD []).map List.length = labels.map Prod.fst := by
    intro y hy
    apply List.ext_getElem
    · simp [hlen]
    · intro j h1 h2
      simp only [List.getElem_map]
      have hj : j < labels.length := by simpa using h2
      have hj2 : j < padded.length := by omega
      obtain ⟨p1, p2, p3, p4⟩ := pad_spec (hpad j hj hj2)
      by_cases hyy : y < 1280 - labels[j].2.length
      · rw [p3 y hyy]; simp
      · have hy2 : y - (1280 - labels[j].2.length) < labels[j].2.length := by omega
        have := p4 _ hy2
        rw [show 1280 - labels[j].2.length + (y - (1280 - labels[j].2.length)) = y by omega] at this
        rw [this, List.getElem?_eq_getElem hy2]
        simp only [Option.getD_some]
        exact hw _ (List.getElem_mem hj) _ (List.getElem_mem hy2)
  have hat : ∀ (y : ℕ), y < 1280 → (beside padded)[y]? = some ((padded.map fun l => (l[y]?).getD []).flatten) := by
    intro y hy
    unfold beside
    rw [List.getElem?_map, List.getElem?_range hy, Option.map_some]
  refine ⟨by simp [beside], ?_, ?_⟩
  · intro row hr
    obtain ⟨y, hy, rfl⟩ := List.mem_map.1 hr
    rw [List.length_flatten, hrow y (by simpa using hy)]
  · intro j l hl
    obtain ⟨hj, rfl⟩ := List.getElem?_eq_some_iff.1 hl
    have hj2 : j < padded.length := by omega
    obtain ⟨p1, p2, p3, p4⟩ := pad_spec (hpad j hj hj2)
    refine ⟨p1, ?_⟩
    intro x hx
    have hoff : ∀ (y : ℕ), y < 1280 → ((labels.take j).map Prod.fst).sum = (((padded.map fun l => (l[y]?).getD []).take j).map List.length).sum := by
      intro y hy
      rw [List.map_take, List.map_take, hrow y hy]
    constructor
    · intro y row hr
      obtain ⟨hy, rfl⟩ := List.getElem?_eq_some_iff.1 hr
      have hY : 1280 - labels[j].2.length + y < 1280 := by omega
      refine ⟨_, hat _ hY, ?_⟩
      rw [hoff _ hY]
      apply flatten_at
      · rw [List.getElem?_map, List.getElem?_eq_getElem hj2, Option.map_some, p4 y hy, List.getElem?_eq_getElem hy]; rfl
      · rw [hw _ (List.getElem_mem hj) _ (List.getElem_mem hy)]; exact hx
    · intro y hy
      have hY : y < 1280 := by omega
      refine ⟨_, hat _ hY, ?_⟩
      rw [hoff _ hY]
      rw [flatten_at _ j x (List.replicate labels[j].1 0)]
      · rw [List.getElem?_replicate, if_pos hx]
      · rw [List.getElem?_map, List.getElem?_eq_getElem hj2, Option.map_some, p3 y hy]; rfl
      · simpa using hx

/-- **C208**: there is a strip if and only if no picture is higher than 1280. -/
theorem strip_some (labels : List (ℕ × List (List ℕ))) : (strip labels).isSome ↔ ∀ l ∈ labels, l.2.length ≤ 1280 := by
  constructor
  · intro h l hl
    obtain ⟨out, h⟩ := Option.isSome_iff_exists.1 h
    unfold strip at h
    simp only [Option.bind_eq_bind, Option.bind_eq_some_iff, Option.pure_def, Option.some.injEq] at h
    obtain ⟨padded, hp, _⟩ := h
    have hf := mapM_forall₂ hp
    obtain ⟨j, hj, rfl⟩ := List.getElem_of_mem hl
    have := (List.forall₂_iff_get.1 hf).2 j hj (by rw [← hf.length_eq]; exact hj)
    exact (pad_spec this).1
  · intro h
    obtain ⟨p, hp⟩ : ∃ p, labels.mapM (fun l => pad l.1 l.2) = some p := by
      apply mapM_isSome
      intro l hl
      unfold pad
      rw [if_neg (by have := h l hl; omega)]
      exact ⟨_, rfl⟩
    unfold strip
    rw [hp]
    rfl

/-- **C208**: the strips of the frames are below each other, in order. -/
theorem panorama_spec {frames : List (List (ℕ × List (List ℕ)))} {out : List (List ℕ)} (h : panorama frames = some out) :
    ∃ strips, List.Forall₂ (fun f s => strip f = some s) frames strips ∧ out = strips.flatten ∧
      ∀ (k : ℕ) s, strips[k]? = some s → ∀ (y : ℕ), y < 1280 → out[1280 * k + y]? = s[y]? := by
  unfold panorama at h
  simp only [Option.bind_eq_bind, Option.bind_eq_some_iff] at h
  obtain ⟨strips, hs, h⟩ := h
  split_ifs at h with hc
  have e := Option.some.inj h
  subst e
  have hf := mapM_forall₂ hs
  refine ⟨strips, hf, rfl, ?_⟩
  have h1280 : ∀ s ∈ strips, s.length = 1280 := by
    intro s hs
    obtain ⟨k, hk, rfl⟩ := List.getElem_of_mem hs
    have := (List.forall₂_iff_get.1 hf).2 k (by rw [hf.length_eq]; exact hk) hk
    simp only [List.get_eq_getElem] at this
    unfold strip at this
    simp only [Option.bind_eq_bind, Option.bind_eq_some_iff, Option.pure_def, Option.some.injEq] at this
    obtain ⟨_, _, e⟩ := this
    rw [← e]; simp [beside]
  intro k s hk y hy
  have hmem := List.mem_of_getElem? hk
  have := flatten_at strips k y s hk (by rw [h1280 s hmem]; exact hy)
  rw [← this]
  congr 1
  have hk2 : k < strips.length := (List.getElem?_eq_some_iff.1 hk).1
  have : (strips.take k).map List.length = List.replicate k 1280 := by
    rw [List.eq_replicate_iff]
    refine ⟨by simp; omega, ?_⟩
    intro b hb
    obtain ⟨s, hs, rfl⟩ := List.mem_map.1 hb
    exact h1280 s (List.mem_of_mem_take hs)
  rw [this]
  simp [Nat.mul_comm]

/-- **C208**: the flat list of labels is cut into the frames that it was made of. -/
theorem groups_spec {A : Type} (frames : List (List A)) (h5 : ∀ f ∈ frames, f.length = 5) : groups frames.flatten = some frames := by
  have hlen : frames.flatten.length = frames.length * 5 := by
    rw [List.length_flatten]
    have : frames.map List.length = List.replicate frames.length 5 := by
      rw [List.eq_replicate_iff]
      exact ⟨by simp, by intro b hb; obtain ⟨f, hf, rfl⟩ := List.mem_map.1 hb; exact h5 f hf⟩
    rw [this]; simp
  have hidx : ∀ n : ℕ, ((List.range (n * 5)).filter fun i => i % 5 = 0) = (List.range n).map fun k => 5 * k := by
    intro n
    induction n with
    | zero => rfl
    | succ n ih =>
      rw [Nat.succ_mul, List.range_add, List.filter_append, ih, List.range_succ (n := n), List.map_append]
      congr 1
      have : (List.range 5).map (fun x => n * 5 + x) = [n * 5, n * 5 + 1, n * 5 + 2, n * 5 + 3, n * 5 + 4] := by simp [List.range_succ]
      rw [this]
      have a0 : (n * 5) % 5 = 0 := by omega
      have a1 : (n * 5 + 1) % 5 ≠ 0 := by omega
      have a2 : (n * 5 + 2) % 5 ≠ 0 := by omega
      have a3 : (n * 5 + 3) % 5 ≠ 0 := by omega
      have a4 : (n * 5 + 4) % 5 ≠ 0 := by omega
      simp only [List.filter_cons, a0, a1, a2, a3, a4, decide_true, decide_false, List.filter_nil, if_true, List.map_cons, List.map_nil]
      simp [Nat.mul_comm]
  unfold groups
  rw [hlen, hidx]
  apply forall₂_mapM
  rw [List.forall₂_iff_get]
  refine ⟨by simp, ?_⟩
  intro k h1 h2
  simp only [List.get_eq_getElem, List.getElem_map, List.getElem_range]
  apply forall₂_mapM
  rw [List.forall₂_iff_get]
  have hk := h5 _ (List.getElem_mem h2)
  refine ⟨by simp [hk], ?_⟩
  intro j h3 h4
  simp only [List.get_eq_getElem, List.getElem_range]
  have := flatten_at frames k j frames[k] (List.getElem?_eq_getElem h2) h4
  have hoff : ((frames.take k).map List.length).sum = 5 * k := by
    have : (frames.take k).map List.length = List.replicate k 5 := by
      rw [List.eq_replicate_iff]
      exact ⟨by simp; omega, by intro b hb; obtain ⟨f, hf, rfl⟩ := List.mem_map.1 hb; exact h5 f (List.mem_of_mem_take hf)⟩
    rw [this]; simp [Nat.mul_comm]
  rw [hoff] at this
  rw [this, List.getElem?_eq_getElem h4]

/-! ### C209: submissions -/

/-- Specification: the times that are asked for; an empty list asks for all. -/
def Asked (valid : Option (List String)) (f : Frame L J) : Prop := valid = none ∨ valid = some [] ∨ ∃ ts, valid = some ts ∧ toString f.time ∈ ts

open Classical in
/-- **C209**: there is one prediction per frame that is asked for and camera, from left to right, with the time of the frame, its camera and the size of its
picture; all are of the first context that has a name. -/
theorem generate_spec {decode : J → Option (ℕ × ℕ)} {valid : Option (List String)} {frames : List (Frame L J)} {out : List Seg}
    (hn : ∀ f ∈ frames, (f.images.map Image.name).Nodup) (h : generate decode valid frames = some out) :
    ∃ parts : List (List Seg), out = parts.flatten ∧ List.Forall₂ (fun (f : Frame L J) (segs : List Seg) =>
      List.Forall₂ (fun (camera : ℕ) (s : Seg) => s.camera = camera ∧ s.time = f.time ∧ s.divisor = 1000 ∧
        s.context = ((frames.map Frame.context).find? fun c => c ≠ "").getD "" ∧ s.sequence = s.context ∧
        ∃ i ∈ f.images, i.name = camera ∧ decode i.jpeg = some (s.height, s.width)) [4, 2, 1, 3, 5] segs)
      (frames.filter fun f => Asked valid f) parts := by
  obtain ⟨test, htest, images, hi, times, ht, preds, hp, rfl⟩ : ∃ test : List (Frame L J), test = (frames.filter fun f => decide (Asked valid f)) ∧
      ∃ images, (test.mapM fun f => ordered (f.images.map fun i => (i.name, i.jpeg))) = some images ∧
      ∃ times, (test.mapM fun f => ordered (f.images.map fun i => (i.name, f.time))) = some times ∧
      ∃ preds, images.flatten.mapM decode = some preds ∧
      ((preds.zip (times.flatten.zip (test.map fun _ => order).flatten)).map fun p =>
        (⟨((frames.map Frame.context).find? fun c => c ≠ "").getD "", p.2.1, p.2.2, p.1.1, p.1.2, 1000,
          ((frames.map Frame.context).find? fun c => c ≠ "").getD ""⟩ : Seg)) = out := by
    have hall : ∀ v : Option (List String), v = none ∨ v = some [] → (frames.filter fun f => decide (Asked v f)) = frames := by
      intro v hv
      rw [List.filter_eq_self]
      intro f _
      rcases hv with rfl | rfl <;> simp [Asked]
    unfold generate loadShard at h
    match valid, h with
    | none, h =>
      rw [hall none (Or.inl rfl)]
      simp only [Option.bind_eq_bind, Option.bind_eq_some_iff, Option.pure_def, Option.some.injEq] at h
      exact ⟨_, rfl, h⟩
    | some [], h =>
      rw [hall (some []) (Or.inr rfl)]
      simp only [Option.bind_eq_bind, Option.bind_eq_some_iff, Option.pure_def, Option.some.injEq] at h
      exact ⟨_, rfl, h⟩
    | some (t :: ts), h =>
      have : (frames.filter fun f => decide (Asked (some (t :: ts)) f)) = frames.filter fun f => decide (toString f.time ∈ t :: ts) := by
        apply List.filter_congr
        intro f _
        simp [Asked]
      rw [this]
      simp only [Option.bind_eq_bind, Option.bind_eq_some_iff, Option.pure_def, Option.some.injEq] at h
      exact ⟨_, rfl, h⟩
  have hn2 : ∀ f ∈ test, (f.images.map Image.name).Nodup := by
    intro f hf
    rw [htest] at hf
    exact hn f (List.mem_filter.1 hf).1
  rw [← htest]
  clear htest hn h
  generalize ((frames.map Frame.context).find? fun c => c ≠ "").getD "" = context
  replace hi := mapM_forall₂ hi
  replace ht := mapM_forall₂ ht
  replace hp := mapM_forall₂ hp
  induction test generalizing images times preds with
  | nil =>
    cases hi; cases ht
    simp only [List.flatten_nil] at hp
    cases hp
    exact ⟨[], by simp, List.Forall₂.nil⟩
  | cons f test ih =>
    cases hi with
    | cons hi1 hi2 =>
    rename_i im ims
    cases ht with
    | cons ht1 ht2 =>
    rename_i tm tms
    have hnf := hn2 f (by simp)
    obtain ⟨a1, a2, a3, a4, a5, rfl, ha1, ha2, ha3, ha4, ha5⟩ := (ordered_spec (by rw [List.map_map]; exact hnf) _).1 hi1
    obtain ⟨b1, b2, b3, b4, b5, rfl, hb1, hb2, hb3, hb4, hb5⟩ := (ordered_spec (by rw [List.map_map]; exact hnf) _).1 ht1
    simp only [List.flatten_cons, List.cons_append, List.nil_append] at hp
    cases hp with
    | cons p1 hp => cases hp with
    | cons p2 hp => cases hp with
    | cons p3 hp => cases hp with
    | cons p4 hp => cases hp with
    | cons p5 hp =>
    rename_i c1 c2 c3 c4 c5 ps
    obtain ⟨parts, e1, e2⟩ := ih ims tms ps (fun g hg => hn2 g (by simp [hg])) hi2 ht2 hp
    have tb : ∀ (k t : ℕ), (k, t) ∈ (f.images.map fun i => (i.name, f.time)) → t = f.time := by
      intro k t h
      obtain ⟨i, _, e⟩ := List.mem_map.1 h
      exact (Prod.mk.inj e).2.symm
    have ib : ∀ (k : ℕ) (a : J), (k, a) ∈ (f.images.map fun i => (i.name, i.jpeg)) → ∃ i ∈ f.images, i.name = k ∧ i.jpeg = a := by
      intro k a h
      obtain ⟨i, hi, e⟩ := List.mem_map.1 h
      exact ⟨i, hi, (Prod.mk.inj e).1, (Prod.mk.inj e).2⟩
    rw [tb _ _ hb1, tb _ _ hb2, tb _ _ hb3, tb _ _ hb4, tb _ _ hb5]
    have fin : ∀ (k : ℕ) (a : J) (c : ℕ × ℕ), (k, a) ∈ (f.images.map fun i => (i.name, i.jpeg)) → decode a = some c →
        ∃ i ∈ f.images, i.name = k ∧ decode i.jpeg = some (c.1, c.2) := by
      intro k a c h1 h2
      obtain ⟨i, hi, e3, e4⟩ := ib k a h1
      exact ⟨i, hi, e3, by rw [e4, h2]⟩
    refine ⟨[⟨context, f.time, 4, c1.1, c1.2, 1000, context⟩, ⟨context, f.time, 2, c2.1, c2.2, 1000, context⟩,
      ⟨context, f.time, 1, c3.1, c3.2, 1000, context⟩, ⟨context, f.time, 3, c4.1, c4.2, 1000, context⟩,
      ⟨context, f.time, 5, c5.1, c5.2, 1000, context⟩] :: parts, ?_, List.Forall₂.cons ?_ e2⟩
    · rw [List.flatten_cons (L := parts), ← e1]
      simp [order]
    · refine .cons ⟨rfl, rfl, rfl, rfl, rfl, fin _ _ _ ha1 p1⟩ (.cons ⟨rfl, rfl, rfl, rfl, rfl, fin _ _ _ ha2 p2⟩
        (.cons ⟨rfl, rfl, rfl, rfl, rfl, fin _ _ _ ha3 p3⟩ (.cons ⟨rfl, rfl, rfl, rfl, rfl, fin _ _ _ ha4 p4⟩
          (.cons ⟨rfl, rfl, rfl, rfl, rfl, fin _ _ _ ha5 p5⟩ .nil))))

example : generate (fun _ => some (2, 3)) (some ["1"]) [five, ⟨"c", 7, []⟩] =
    some (order.map fun k => ⟨"c", 1, k, 2, 3, 1000, "c"⟩) := by decide

/-- Specification: the times of the lines of a context. -/
def timesOf (lines : List (String × String)) (c : String) : List String := (lines.filter fun l => l.1 = c).map Prod.snd

/-- **C209**: each context that has a line is once in the dictionary, with the times of all its lines in order. -/
theorem contexts_spec (lines : List (String × String)) : ((contexts lines).map Prod.fst).Nodup ∧
    (∀ c, c ∈ (contexts lines).map Prod.fst ↔ c ∈ lines.map Prod.fst) ∧ ∀ e ∈ contexts lines, e.2 = timesOf lines e.1 := by
  induction lines using List.reverseRecOn with
  | nil => simp [contexts]
  | append_singleton lines l ih =>
    obtain ⟨h1, h2, h3⟩ := ih
    have e : contexts (lines ++ [l]) = if l.1 ∈ (contexts lines).map Prod.fst then (contexts lines).map fun e => if e.1 = l.1 then (e.1, e.2 ++ [l.2]) else e
        else contexts lines ++ [(l.1, [l.2])] := by
      unfold contexts
      rw [List.foldl_append, List.foldl_cons, List.foldl_nil]
    have ht : ∀ c, timesOf (lines ++ [l]) c = timesOf lines c ++ if l.1 = c then [l.2] else [] := by
      intro c
      unfold timesOf
      rw [List.filter_append, List.map_append]
      congr 1
      by_cases hc : l.1 = c <;> simp [hc]
    rw [e]
    by_cases hl : l.1 ∈ (contexts lines).map Prod.fst
    · rw [if_pos hl]
      have hm : ((contexts lines).map fun e => if e.1 = l.1 then (e.1, e.2 ++ [l.2]) else e).map Prod.fst = (contexts lines).map Prod.fst := by
        rw [List.map_map]
        apply List.map_congr_left
        intro e _
        simp only [Function.comp]
        split_ifs <;> rfl
      rw [hm]
      refine ⟨h1, ?_, ?_⟩
      · intro c
        rw [h2 c, List.map_append, List.mem_append]
        constructor
        · exact Or.inl
        · rintro (h | h)
          · exact h
          · rw [(by simpa using h : c = l.1)]; exact (h2 l.1).1 hl
      · intro e he
        obtain ⟨e0, he0, rfl⟩ := List.mem_map.1 he
        rw [ht]
        by_cases hc : e0.1 = l.1
        · rw [if_pos hc, if_pos hc.symm, h3 e0 he0]
        · rw [if_neg hc, if_neg (fun x => hc x.symm), h3 e0 he0]; simp
    · rw [if_neg hl]
      have hl2 : l.1 ∉ lines.map Prod.fst := fun x => hl ((h2 l.1).2 x)
      refine ⟨?_, ?_, ?_⟩
      · rw [List.map_append]
        refine List.Nodup.append h1 (by simp) ?_
        intro x hx hy
        rw [(by simpa using hy : x = l.1)] at hx
        exact hl hx
      · intro c
        rw [List.map_append, List.mem_append, h2 c, List.map_append, List.mem_append]
        simp
      · intro e he
        rw [ht]
        rcases List.mem_append.1 he with he | he
        · have : l.1 ≠ e.1 := fun x => hl (by rw [x]; exact List.mem_map.2 ⟨e, he, rfl⟩)
          rw [if_neg this, h3 e he]; simp
        · rw [List.mem_singleton.1 he]
          have : timesOf lines l.1 = [] := by
            unfold timesOf
            rw [List.map_eq_nil_iff, List.filter_eq_nil_iff]
            intro x hx hc
            exact hl2 (List.mem_map.2 ⟨x, hx, by simpa using hc⟩)
          simp [this]

theorem replace_end (p q : List Char) (hp : p ≠ []) : ∀ (a : List Char) (n : ℕ), a.length + p.length ≤ n →
    (∀ b c, a = b ++ c → c ≠ [] → ¬ p <+: c ++ p) → replace p q n (a ++ p) = a ++ q := by
  intro a
  induction a with
  | nil =>
    intro n hn _
    obtain ⟨c, l, rfl⟩ := List.exists_cons_of_ne_nil hp
    obtain ⟨m, rfl⟩ : ∃ m, n = m + 1 := ⟨n - 1, by simp at hn; omega⟩
    simp only [List.nil_append]
    rw [replace, if_pos (List.prefix_refl _), List.drop_length]
    have : ∀ m, replace (c :: l) q m [] = [] := by intro m; cases m <;> rfl
    rw [this, List.append_nil]
  | cons x a ih =>
    intro n hn h
    obtain ⟨m, rfl⟩ : ∃ m, n = m + 1 := ⟨n - 1, by simp at hn; omega⟩
    have h1 := h [] (x :: a) rfl (by simp)
    rw [List.cons_append] at h1 ⊢
    rw [replace, if_neg h1, ih m (by simp at hn; omega) fun b c e hc => h (x :: b) c (by rw [e]; rfl) hc]
    rfl

/-- The point of `.tfrecord` is at position 19 of the ending and nowhere else. -/
theorem dot_at : ∀ i < 28, ending[i]? = some '.' ↔ i = 19 := by decide

/-- **C209**: the data of a context whose name has no point gives the file of that context. -/
theorem saveName_spec (name : List Char) (hd : '.' ∉ name) : saveName (name ++ ending) =
    some (name ++ ending') := by
  unfold saveName
  have hin : tfrecord <:+: name ++ ending := ⟨name ++ ['_', 'w', 'i', 't', 'h', '_', 'c', 'a', 'm', 'e', 'r', 'a', '_', 'l', 'a', 'b', 'e', 'l', 's'], [], by simp [ending]⟩
  rw [if_pos hin, replace_end]
  · decide
  · simp
  · intro b c e hc hpre
    have hlen : ending.length = 28 := rfl
    obtain ⟨t, ht⟩ := hpre
    have h19 := congrArg (fun l => l[19]?) ht
    rw [List.getElem?_append_left (by rw [hlen]; omega), (dot_at 19 (by omega)).2 rfl] at h19
    by_cases hc19 : 19 < c.length
    · rw [List.getElem?_append_left hc19] at h19
      exact hd (by rw [e]; exact List.mem_append_right _ (List.mem_of_getElem? h19.symm))
    · rw [List.getElem?_append_right (by omega)] at h19
      have := (dot_at (19 - c.length) (by omega)).1 h19.symm
      have : 0 < c.length := List.length_pos_iff.2 hc
      omega

/-- **C209 is violated**: data with another ending, such as the default of the tutorial, give a submission with the very name of the data. -/
theorem saveName_violated : saveName (['t', 'f', 'e', 'x', 'a', 'm', 'p', 'l', 'e'] ++ tfrecord) = some (['t', 'f', 'e', 'x', 'a', 'm', 'p', 'l', 'e'] ++ tfrecord) := by decide

theorem foldlM_files : ∀ (names : List String) (folder : Folder), (∀ c ∈ names, '.' ∉ c.toList) →
    ∃ folder', (names.foldlM (fun folder context => do
      let name ← saveName (segment ++ context.toList ++ ending)
      pure (save folder name)) folder : Option Folder) = some folder' ∧
      ∀ name, name ∈ folder'.getD [] ↔ name ∈ folder.getD [] ∨
        ∃ c ∈ names, name = segment ++ c.toList ++ ending' := by
  intro names
  induction names with
  | nil => intro folder _; exact ⟨folder, rfl, by simp⟩
  | cons c names ih =>
    intro folder h
    have hc : '.' ∉ segment ++ c.toList := by
      rw [List.mem_append]
      rintro (hh | hh)
      · exact absurd hh (by decide)
      · exact h c (by simp) hh
    obtain ⟨folder', h1, h2⟩ := ih (save folder (segment ++ c.toList ++ ending'))
      fun d hd => h d (by simp [hd])
    refine ⟨folder', ?_, ?_⟩
    · rw [List.foldlM_cons, saveName_spec _ hc]
      exact h1
    · intro name
      rw [h2]
      have hsave : ∀ n, name ∈ (save folder n).getD [] ↔ name ∈ folder.getD [] ∨ name = n := by
        intro n
        unfold save
        cases folder with
        | none => simp
        | some files =>
          simp only [Option.getD_some]
          split_ifs with hm
          · constructor
            · exact Or.inl
            · rintro (hh | rfl)
              · exact hh
              · exact hm
          · simp
      rw [hsave]
      simp only [List.mem_cons, exists_eq_or_imp]
      rw [or_assoc]

/-- **C209, what holds**: starting without the folder, or with an empty one, there is one file per context and no other. -/
theorem saveAll_partial {folder : Folder} (hf : folder = none ∨ folder = some []) (names : List String) (hd : ∀ c ∈ names, '.' ∉ c.toList) :
    ∃ folder', saveAll folder names = some folder' ∧ ∀ name, name ∈ folder'.getD [] ↔
      ∃ c ∈ names, name = segment ++ c.toList ++ ending' := by
  obtain ⟨folder', h1, h2⟩ := foldlM_files names none hd
  refine ⟨folder', ?_, ?_⟩
  · unfold saveAll
    rcases hf with rfl | rfl <;> exact h1
  · intro name; rw [h2]; simp

/-- **C209**: files of different contexts have different names. -/
theorem saveAll_inj {c d : String} (h : segment ++ c.toList ++ ending' =
    segment ++ d.toList ++ ending') : c = d := by
  rw [List.append_left_inj, List.append_right_inj] at h
  exact String.toList_injective h

/-- **C209 is violated**: submissions cannot be made again while those made before are there: the removal of a folder with files raises. -/
theorem saveAll_violated (folder : Folder) (hf : folder = none ∨ folder = some []) (name : String) (hd : '.' ∉ name.toList) (names : List String) :
    ∃ folder', saveAll folder [name] = some folder' ∧ saveAll folder' names = none := by
  obtain ⟨folder', h1, h2⟩ := saveAll_partial hf [name] (by simpa using hd)
  refine ⟨folder', h1, ?_⟩
  have := (h2 _).2 ⟨name, by simp, rfl⟩
  match folder', this with
  | some (a :: l), _ => rfl

end Verif.PvpsTutorial
