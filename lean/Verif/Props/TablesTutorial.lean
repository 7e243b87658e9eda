import Verif.Props.Frame
import Verif.Model.TablesTutorial

/-! C221: the tables of the tutorial of the second version. -/

namespace Verif.TablesTutorial

open Verif.Frame

variable {V : Type}

theorem at_fun (cs : Cells V) {t : Table V} (hw : WF t) {i : ℕ} {c : String} {v w : V} (h : At t i c v) (h' : At t i c w) : v = w := by
  obtain ⟨row, k, hr, -⟩ := id h
  rw [at_unique cs t hw i row hr c v h, at_unique cs t hw i row hr c w h']

theorem at_exists (cs : Cells V) {t : Table V} (hw : WF t) {i : ℕ} (hi : i < t.rows.length) {c : String} (hc : c ∈ t.cols) : ∃ v, At t i c v :=
  ⟨_, at_cell cs t hw i _ (List.getElem?_eq_getElem hi) c hc⟩

/-- Specification: the tables share no columns but keys. -/
def Apart (a b : Table V) : Prop := ∀ c ∈ a.cols, c ∈ b.cols → "key.".toList <+: c.toList

/-- Specification: no key of a row is missing. -/
def Keyed (cs : Cells V) (a b : Table V) (i : ℕ) : Prop := ∀ c, CommonKey "key." a b c → ¬ At a i c cs.null

/-- Specification: two rows of a table have the same keys. -/
def SameKeys (keys : String → Prop) (a : Table V) (i i' : ℕ) : Prop := ∀ c, keys c → ∃ v, At a i c v ∧ At a i' c v

/-- Specification: a row holds the lists of the other columns of a group. -/
def Packs (cs : Cells V) (keys : String → Prop) (a t : Table V) (k : ℕ) (group : List ℕ) : Prop :=
  ∀ c ∈ a.cols, ¬ keys c → ∃ vs, List.Forall₂ (fun i v => At a i c v) group vs ∧ At t k c (cs.pack vs)

/-- **C221, what holds** (cell 4): there is one row for each image that has a box, and no other; it has the image and the lists of all of its boxes, in order. -/
theorem images_partial [DecidableEq V] (cs : Cells V) {images boxes : Table V} (hi : WF images) (hb : WF boxes) (hap : Apart images boxes)
    (hk : ∃ c, CommonKey "key." images boxes c) (hx : ∃ c ∈ boxes.cols, "key.".toList <+: c.toList ∧ c ∉ images.cols)
    (hn : ∀ i < images.rows.length, Keyed cs images boxes i) :
    ∃ (t : Table V) (shown : List ℕ), imagesWithBoxes cs images boxes = some t ∧ shown.Nodup ∧ shown.length = t.rows.length ∧
      (∀ i, i ∈ shown ↔ i < images.rows.length ∧ ∃ j < boxes.rows.length, Agree "key." images boxes i j) ∧
      ∀ (k i : ℕ), shown[k]? = some i → (∀ c v, At images i c v → At t k c v) ∧
        ∃ group : List ℕ, group.Pairwise (· < ·) ∧ (∀ j, j ∈ group ↔ j < boxes.rows.length ∧ Agree "key." images boxes i j) ∧
          Packs cs (CommonKey "key." images boxes) boxes t k group := by
  obtain ⟨l, r, t, ht, ⟨entries, e1, e2, -, e4, e5, e6, e7, e8⟩, hl, hr⟩ := merge_spec cs images boxes hi hb false false false true "key." hk
  rw [if_neg (by simp)] at hl
  subst hl
  rw [if_pos ⟨rfl, hx⟩] at hr
  have hg := hr
  obtain ⟨wr, hcols, g1, g2, g3⟩ := hr
  have hck : ∀ c, CommonKey "key." l r c ↔ CommonKey "key." l boxes c := by
    intro c; simp only [CommonKey, hcols]
  have hall : ∀ e ∈ entries, ∃ i j, e = (some i, some j) := by
    rintro ⟨a, b⟩ he
    cases a with
    | none =>
      cases b with
      | none => exact absurd he e7
      | some j => have := ((e6 j).1 he).1; simp at this
    | some i =>
      cases b with
      | none => have := ((e5 i).1 he).1; simp at this
      | some j => exact ⟨i, j, rfl⟩
  refine ⟨t, entries.map fun e => e.1.getD 0, ht, ?_, by rw [List.length_map, e2], ?_, ?_⟩
  · refine List.Nodup.map_on ?_ e1
    intro x hx' y hy hxy
    obtain ⟨i, j, rfl⟩ := hall x hx'
    obtain ⟨i', j', rfl⟩ := hall y hy
    simp only [Option.getD_some] at hxy
    subst hxy
    obtain ⟨-, h2, h3⟩ := (e4 i j).1 hx'
    obtain ⟨-, h5, h6⟩ := (e4 i j').1 hy
    rw [grouped_no_cross_product cs "key." l r boxes hg hi i j j' h2 h5 h3 h6]
  · intro i
    simp only [List.mem_map]
    constructor
    · rintro ⟨e, he, rfl⟩
      obtain ⟨i, j, rfl⟩ := hall e he
      obtain ⟨h1, h2, h3⟩ := (e4 i j).1 he
      refine ⟨h1, ?_⟩
      obtain ⟨group, n1, -, n3, -⟩ := g2 j h2
      obtain ⟨b, hbm⟩ := List.exists_mem_of_ne_nil group n1
      obtain ⟨b1, b2⟩ := (n3 b).1 hbm
      refine ⟨b, b1, fun c hc => ?_⟩
      obtain ⟨v, v1, v2⟩ := h3 c ((hck c).2 hc)
      exact ⟨v, v1, (b2 c v hc).2 v2⟩
    · rintro ⟨h1, j, h2, h3⟩
      obtain ⟨k, k1, k2⟩ := g1 j h2 (fun c hc hnull => by
        obtain ⟨v, v1, v2⟩ := h3 c hc
        exact hn i h1 c hc (at_fun cs hb v2 hnull ▸ v1))
      refine ⟨(some i, some k), (e4 i k).2 ⟨h1, k1, fun c hc => ?_⟩, rfl⟩
      obtain ⟨v, v1, v2⟩ := h3 c ((hck c).1 hc)
      exact ⟨v, v1, k2 c v ((hck c).1 hc) v2⟩
  · intro k i hki
    rw [List.getElem?_map, Option.map_eq_some_iff] at hki
    obtain ⟨e, hke, rfl⟩ := hki
    obtain ⟨i, j, rfl⟩ := hall e (List.mem_of_getElem? hke)
    obtain ⟨h1, h2, h3⟩ := (e4 i j).1 (List.mem_of_getElem? hke)
    obtain ⟨c1, c2, c3, -, -⟩ := e8 k _ hke
    simp only [Option.getD_some]
    constructor
    · intro c v hv
      have hc : c ∈ l.cols := by
        obtain ⟨_, _, _, hc, _⟩ := hv
        exact List.mem_of_getElem? hc
      have := c1 c hc i rfl v hv
      unfold leftName at this
      rwa [if_neg] at this
      rintro ⟨q1, q2⟩
      exact q2 ⟨hc, q1, hap c hc ((hcols c).1 q1)⟩
    · obtain ⟨group, -, n2, n3, -, n5⟩ := g2 j h2
      refine ⟨group, n2, ?_, ?_⟩
      · intro b
        rw [n3]
        constructor
        · rintro ⟨b1, b2⟩
          refine ⟨b1, fun c hc => ?_⟩
          obtain ⟨v, v1, v2⟩ := h3 c ((hck c).2 hc)
          exact ⟨v, v1, (b2 c v hc).2 v2⟩
        · rintro ⟨b1, b2⟩
          refine ⟨b1, fun c v hc => ?_⟩
          obtain ⟨u, u1, u2⟩ := h3 c ((hck c).2 hc)
          obtain ⟨w, w1, w2⟩ := b2 c hc
          have huw := at_fun cs hi u1 w1
          subst huw
          constructor
          · intro hv; exact at_fun cs hb w2 hv ▸ u2
          · intro hv; exact at_fun cs wr u2 hv ▸ w2
      · intro c hc hnc
        obtain ⟨vs, v1, v2⟩ := n5 c hc hnc
        refine ⟨vs, v1, ?_⟩
        have := c3 c ((hcols c).2 hc) (fun h => hnc ((hck c).1 h)) j rfl _ v2
        unfold rightName at this
        rwa [if_neg] at this
        intro hcl
        exact hnc ⟨hcl, hc, hap c hcl hc⟩

/-- **C221 is violated** (cell 4): an image without boxes is missing. -/
theorem images_violated : imagesWithBoxes vals ⟨["key.t", "image"], [[.num 1, .num 7], [.num 2, .num 8]]⟩ ⟨["key.t", "key.o", "box"], [[.num 1, .num 5, .num 6]]⟩ =
    some ⟨["key.t", "image", "key.o", "box"], [[.num 1, .num 7, .list [5], .list [6]]]⟩ := by
  decide +kernel

/-- **C221** (cell 7): there is one row for each object, with the lists of its cells over all frames, in order. -/
theorem trajectories_spec [DecidableEq V] (cs : Cells V) {boxes : Table V} (hb : WF boxes) (h1 : "key.segment_context_name" ∈ boxes.cols)
    (h2 : "key.laser_object_id" ∈ boxes.cols) :
    ∃ t, trajectories cs boxes = some t ∧ IsGrouped cs (fun c => c = "key.segment_context_name" ∨ c = "key.laser_object_id") boxes t := by
  obtain ⟨g, e, h⟩ := groupBy_spec cs ["key.segment_context_name", "key.laser_object_id"] boxes hb
    (by intro c hc; simp only [List.mem_cons, List.not_mem_nil, or_false] at hc; rcases hc with rfl | rfl; exacts [h1, h2])
    (by decide +kernel) (by simp)
  refine ⟨g, e, ?_⟩
  simpa only [List.mem_cons, List.not_mem_nil, or_false] using h

/-- **C221, what holds** (cells 9 and 11): there is one row for each frame that has lasers and objects, with the lists of the lasers and of the objects of the frame,
in order; `heads` are lasers of these frames. -/
theorem frames_partial [DecidableEq V] (cs : Cells V) {lasers objs : Table V} (hl : WF lasers) (ho : WF objs) (hap : Apart lasers objs)
    (hk : ∃ c, CommonKey "key." lasers objs c) (hx : ∃ c ∈ lasers.cols, "key.".toList <+: c.toList ∧ c ∉ objs.cols)
    (hy : ∃ c ∈ objs.cols, "key.".toList <+: c.toList ∧ c ∉ lasers.cols) :
    ∃ (t : Table V) (heads : List ℕ), frames cs lasers objs = some t ∧ heads.length = t.rows.length ∧
      (∀ a < lasers.rows.length, Keyed cs lasers objs a → (∃ b < objs.rows.length, Agree "key." lasers objs a b) →
        ∃ h ∈ heads, SameKeys (CommonKey "key." lasers objs) lasers a h) ∧
      (∀ (k k' h h' : ℕ), heads[k]? = some h → heads[k']? = some h' → SameKeys (CommonKey "key." lasers objs) lasers h h' → k = k') ∧
      ∀ (k h : ℕ), heads[k]? = some h → (∀ c v, CommonKey "key." lasers objs c → At lasers h c v → At t k c v) ∧
        ∃ ga gb : List ℕ, h ∈ ga ∧ gb ≠ [] ∧ ga.Pairwise (· < ·) ∧ gb.Pairwise (· < ·) ∧
          (∀ a, a ∈ ga ↔ a < lasers.rows.length ∧ SameKeys (CommonKey "key." lasers objs) lasers h a) ∧
          (∀ b, b ∈ gb ↔ b < objs.rows.length ∧ Agree "key." lasers objs h b) ∧
          Packs cs (CommonKey "key." lasers objs) lasers t k ga ∧ Packs cs (CommonKey "key." lasers objs) objs t k gb := by
  obtain ⟨l, r, t, ht, ⟨entries, e1, e2, -, e4, e5, e6, e7, e8⟩, hgl, hgr⟩ := merge_spec cs lasers objs hl ho false false true true "key." hk
  rw [if_pos ⟨rfl, hx⟩] at hgl
  rw [if_pos ⟨rfl, hy⟩] at hgr
  obtain ⟨wl, cl, l1, l2, l3⟩ := hgl
  obtain ⟨wr, cr, r1, r2, r3⟩ := hgr
  have hck : ∀ c, CommonKey "key." l r c ↔ CommonKey "key." lasers objs c := by
    intro c; simp only [CommonKey, cl, cr]
  have hall : ∀ e ∈ entries, ∃ i j, e = (some i, some j) := by
    rintro ⟨a, b⟩ he
    cases a with
    | none =>
      cases b with
      | none => exact absurd he e7
      | some j => have := ((e6 j).1 he).1; simp at this
    | some i =>
      cases b with
      | none => have := ((e5 i).1 he).1; simp at this
      | some j => exact ⟨i, j, rfl⟩
  have leftN : ∀ c ∈ lasers.cols, leftName "key." l r c = c := by
    intro c hc
    unfold leftName
    rw [if_neg]
    rintro ⟨q1, q2⟩
    exact q2 ⟨(cl c).2 hc, q1, hap c hc ((cr c).1 q1)⟩
  -- each row of the result has a laser whose keys are those of the two grouped rows
  have hrow : ∀ k, ∃ h, k < t.rows.length → ∃ i j, entries[k]? = some (some i, some j) ∧ i < l.rows.length ∧ j < r.rows.length ∧
      h < lasers.rows.length ∧ ∀ c, CommonKey "key." lasers objs c → ∃ v, At l i c v ∧ At r j c v ∧ At lasers h c v := by
    intro k
    by_cases hk' : k < t.rows.length
    · have hk2 : k < entries.length := by omega
      obtain ⟨i, j, he⟩ := hall entries[k] (List.getElem_mem hk2)
      have hke : entries[k]? = some (some i, some j) := by rw [List.getElem?_eq_getElem hk2, he]
      obtain ⟨h1, h2, h3⟩ := (e4 i j).1 (List.mem_of_getElem? hke)
      obtain ⟨group, n1, -, n3, -⟩ := l2 i h1
      obtain ⟨a, ha⟩ := List.exists_mem_of_ne_nil group n1
      obtain ⟨a1, a2⟩ := (n3 a).1 ha
      refine ⟨a, fun _ => ⟨i, j, hke, h1, h2, a1, fun c hc => ?_⟩⟩
      obtain ⟨v, v1, v2⟩ := h3 c ((hck c).2 hc)
      exact ⟨v, v1, v2, (a2 c v hc).2 v1⟩
    · exact ⟨0, fun h => absurd h hk'⟩
  choose head hhead using hrow
  have hget : ∀ (k h : ℕ), ((List.range t.rows.length).map head)[k]? = some h → k < t.rows.length ∧ h = head k := by
    intro k h hkh
    rw [List.getElem?_map, Option.map_eq_some_iff] at hkh
    obtain ⟨m, hm, rfl⟩ := hkh
    obtain ⟨hm1, hm2⟩ := List.getElem?_eq_some_iff.1 hm
    rw [List.getElem_range] at hm2
    subst hm2
    exact ⟨by simpa using hm1, rfl⟩
  refine ⟨t, (List.range t.rows.length).map head, ht, by simp, ?_, ?_, ?_⟩
  · rintro a ha hkey ⟨b, hb, hab⟩
    obtain ⟨i, i1, i2⟩ := l1 a ha hkey
    obtain ⟨j, j1, j2⟩ := r1 b hb (fun c hc hnull => by
      obtain ⟨v, v1, v2⟩ := hab c hc
      exact hkey c hc (at_fun cs ho v2 hnull ▸ v1))
    have hm : (some i, some j) ∈ entries := (e4 i j).2 ⟨i1, j1, fun c hc => by
      obtain ⟨v, v1, v2⟩ := hab c ((hck c).1 hc)
      exact ⟨v, i2 c v ((hck c).1 hc) v1, j2 c v ((hck c).1 hc) v2⟩⟩
    obtain ⟨k, hk1, hk2⟩ := List.getElem_of_mem hm
    have hkt : k < t.rows.length := by omega
    refine ⟨head k, List.mem_map.2 ⟨k, List.mem_range.2 hkt, rfl⟩, fun c hc => ?_⟩
    obtain ⟨i', j', hke, -, -, -, hv⟩ := hhead k hkt
    rw [List.getElem?_eq_getElem hk1, hk2] at hke
    obtain ⟨rfl, rfl⟩ : i = i' ∧ j = j' := by simpa using hke
    obtain ⟨v, v1, -, v3⟩ := hv c hc
    obtain ⟨w, w1, -⟩ := hab c hc
    have := at_fun cs wl (i2 c w hc w1) v1
    subst this
    exact ⟨w, w1, v3⟩
  · intro k k' h h' hkh hkh' hs
    obtain ⟨hk1, rfl⟩ := hget k h hkh
    obtain ⟨hk1', rfl⟩ := hget k' h' hkh'
    obtain ⟨i, j, hke, i1, j1, -, hv⟩ := hhead k hk1
    obtain ⟨i', j', hke', i1', j1', -, hv'⟩ := hhead k' hk1'
    have key : ∀ c, CommonKey "key." lasers objs c → ∃ v, At l i c v ∧ At r j c v ∧ At l i' c v ∧ At r j' c v := by
      intro c hc
      obtain ⟨v, v1, v2, v3⟩ := hv c hc
      obtain ⟨w, w1, w2, w3⟩ := hv' c hc
      obtain ⟨u, u1, u2⟩ := hs c hc
      have hvu := at_fun cs hl v3 u1
      have hwu := at_fun cs hl w3 u2
      subst hvu; subst hwu
      exact ⟨_, v1, v2, w1, w2⟩
    have hii : i = i' := l3 i i' i1 i1' fun c v hc => by
      obtain ⟨u, u1, -, u3, -⟩ := key c hc
      exact ⟨fun q => at_fun cs wl u1 q ▸ u3, fun q => at_fun cs wl u3 q ▸ u1⟩
    have hjj : j = j' := r3 j j' j1 j1' fun c v hc => by
      obtain ⟨u, -, u2, -, u4⟩ := key c hc
      exact ⟨fun q => at_fun cs wr u2 q ▸ u4, fun q => at_fun cs wr u4 q ▸ u2⟩
    subst hii; subst hjj
    obtain ⟨b1, b2⟩ := List.getElem?_eq_some_iff.1 hke
    obtain ⟨b1', b2'⟩ := List.getElem?_eq_some_iff.1 hke'
    exact (List.Nodup.getElem_inj_iff e1).1 (b2.trans b2'.symm)
  · intro k h hkh
    obtain ⟨hk1, rfl⟩ := hget k h hkh
    obtain ⟨i, j, hke, i1, j1, a1, hv⟩ := hhead k hk1
    obtain ⟨c1, c2, c3, -, -⟩ := e8 k _ hke
    obtain ⟨ga, -, n2, n3, -, n5⟩ := l2 i i1
    obtain ⟨gb, m1, m2, m3, -, m5⟩ := r2 j j1
    have memA : ∀ a, a ∈ ga ↔ a < lasers.rows.length ∧ SameKeys (CommonKey "key." lasers objs) lasers (head k) a := by
      intro a
      rw [n3]
      refine and_congr_right fun _ => ⟨fun q c hc => ?_, fun q c v hc => ?_⟩
      · obtain ⟨v, v1, -, v3⟩ := hv c hc
        exact ⟨v, v3, (q c v hc).2 v1⟩
      · obtain ⟨u, u1, -, u3⟩ := hv c hc
        obtain ⟨w, w1, w2⟩ := q c hc
        have huw := at_fun cs hl u3 w1
        subst huw
        exact ⟨fun hq => at_fun cs hl w2 hq ▸ u1, fun hq => at_fun cs wl u1 hq ▸ w2⟩
    refine ⟨?_, ga, gb, ?_, m1, n2, m2, memA, ?_, ?_, ?_⟩
    · intro c v hc hat
      obtain ⟨u, u1, -, u3⟩ := hv c hc
      have huv := at_fun cs hl u3 hat
      subst huv
      have := c1 c ((cl c).2 hc.1) i rfl _ u1
      rwa [leftN c hc.1] at this
    · refine (memA _).2 ⟨a1, fun c hc => ?_⟩
      obtain ⟨u, -, -, u3⟩ := hv c hc
      exact ⟨u, u3, u3⟩
    · intro b
      rw [m3]
      refine and_congr_right fun _ => ⟨fun q c hc => ?_, fun q c v hc => ?_⟩
      · obtain ⟨v, -, v2, v3⟩ := hv c hc
        exact ⟨v, v3, (q c v hc).2 v2⟩
      · obtain ⟨u, -, u2, u3⟩ := hv c hc
        obtain ⟨w, w1, w2⟩ := q c hc
        have huw := at_fun cs hl u3 w1
        subst huw
        exact ⟨fun hq => at_fun cs ho w2 hq ▸ u2, fun hq => at_fun cs wr u2 hq ▸ w2⟩
    · intro c hc hnc
      obtain ⟨vs, v1, v2⟩ := n5 c hc hnc
      refine ⟨vs, v1, ?_⟩
      have := c1 c ((cl c).2 hc) i rfl _ v2
      rwa [leftN c hc] at this
    · intro c hc hnc
      obtain ⟨vs, v1, v2⟩ := m5 c hc hnc
      refine ⟨vs, v1, ?_⟩
      have := c3 c ((cr c).2 hc) (fun q => hnc ((hck c).1 q)) j rfl _ v2
      unfold rightName at this
      rwa [if_neg] at this
      intro hcl
      exact hnc ⟨(cl c).1 hcl, hc, hap c ((cl c).1 hcl) hc⟩

/-- The hypotheses are met by a table of images, lasers or objects with keys of its own. -/
theorem apart_met : Apart (V := Val) ⟨["key.t", "key.laser", "points"], [[.num 1, .num 1, .num 7]]⟩ ⟨["key.t", "key.o", "box"], [[.num 1, .num 5, .num 6]]⟩ ∧
    Keyed vals ⟨["key.t", "key.laser", "points"], [[.num 1, .num 1, .num 7]]⟩ ⟨["key.t", "key.o", "box"], [[.num 1, .num 5, .num 6]]⟩ 0 := by
  constructor
  · intro c hc hc'
    simp only [List.mem_cons, List.not_mem_nil, or_false] at hc hc'
    rcases hc with rfl | rfl | rfl
    · decide +kernel
    · decide +kernel
    · revert hc'; decide +kernel
  · rintro c - ⟨row, k, hr, -, hv⟩
    simp only [List.getElem?_cons_zero, Option.some.injEq] at hr
    subst hr
    rcases k with _ | _ | _ | k <;> simp [vals] at hv

/-- The number of items of a list. -/
def size : Val → Option ℕ
  | .list vs => some vs.length
  | _ => none

/-- **C221 is violated** (cells 9 and 11): in a frame with one object that two cameras see, the number of objects found is two. -/
theorem found_violated :
    (do
      let os ← objects vals false
        ⟨["key.t", "key.camera", "key.camera_object", "key.laser_object_id"], [[.num 1, .num 1, .num 10, .num 5], [.num 1, .num 2, .num 20, .num 5]]⟩
        ⟨["key.t", "key.camera", "key.camera_object", "cbox"], [[.num 1, .num 1, .num 10, .num 31], [.num 1, .num 2, .num 20, .num 32]]⟩
        ⟨["key.t", "key.camera", "image"], [[.num 1, .num 1, .num 41], [.num 1, .num 2, .num 42]]⟩
        ⟨["key.t", "key.laser_object_id", "lbox"], [[.num 1, .num 5, .num 6]]⟩
      let t ← frames vals ⟨["key.t", "key.laser", "points"], [[.num 1, .num 1, .num 7]]⟩ os
      t.rows.mapM (found size vals t)) = some [2] := by
  decide +kernel

/-- **C221 is violated** (cell 9; cell 13 likewise): an object that no camera sees is missing, and so is a frame of such objects; in cell 11 it is there. -/
theorem objects_violated (optional : Bool) :
    (objects vals optional ⟨["key.t", "key.camera_object", "key.laser_object_id"], [[.num 1, .num 10, .num 5]]⟩
        ⟨["key.t", "key.camera", "key.camera_object", "cbox"], [[.num 1, .num 1, .num 10, .num 31]]⟩
        ⟨["key.t", "key.camera", "image"], [[.num 1, .num 1, .num 41]]⟩
        ⟨["key.t", "key.laser_object_id", "lbox"], [[.num 1, .num 5, .num 6], [.num 2, .num 5, .num 8]]⟩).map (fun t => t.rows.length) =
      some (if optional then 2 else 1) := by
  cases optional <;> decide +kernel

/-- A merge of tables that share no columns but keys is a table with the columns of both. -/
theorem joined [DecidableEq V] (cs : Cells V) (o : Bool) {x y : Table V} (hx : WF x) (hy : WF y) (hap : Apart x y) (hk : ∃ c, CommonKey "key." x y c) :
    ∃ t, merge cs x y o false false false "key." = some t ∧ IsJoin cs.null "key." o false x y t ∧ WF t ∧ ∀ c, c ∈ t.cols ↔ c ∈ x.cols ∨ c ∈ y.cols := by
  have hmem := mem_common "key." x y
  set on := (keyColumns "key." x).filter (fun c => c ∈ keyColumns "key." y) with hon
  have hne : on ≠ [] := by
    obtain ⟨c, hc⟩ := hk
    exact List.ne_nil_of_mem ((hmem c).2 hc)
  obtain ⟨t, ht, hj⟩ := pandasMerge_spec cs "key." x y hx hy o false on hmem hne
  have hcols : t.cols = x.cols ++ y.cols.filter (fun c => c ∉ on) := by
    rw [pandasMerge, if_neg hne, Option.some.injEq] at ht
    rw [← ht]
    simp only [joinCols]
    congr 1
    · conv_rhs => rw [← List.map_id x.cols]
      refine List.map_congr_left fun c hc => ?_
      rw [if_neg, id]
      rintro ⟨q1, q2⟩
      exact q1 ((hmem c).2 ⟨hc, q2, hap c hc q2⟩)
    · conv_rhs => rw [← List.map_id (y.cols.filter fun c => c ∉ on)]
      refine List.map_congr_left fun c hc => ?_
      rw [List.mem_filter, decide_eq_true_eq] at hc
      rw [if_neg, id]
      intro q
      exact hc.2 ((hmem c).2 ⟨q, hc.1, hap c q hc.1⟩)
  refine ⟨t, ?_, hj, ⟨?_, ?_⟩, ?_⟩
  · simp only [merge, grouped]
    rw [← hon]
    simpa using ht
  · rw [hcols]
    refine List.nodup_append.2 ⟨hx.nodup, hy.nodup.filter _, ?_⟩
    rintro c hc d hd rfl
    rw [List.mem_filter, decide_eq_true_eq] at hd
    exact hd.2 ((hmem c).2 ⟨hc, hd.1, hap c hc hd.1⟩)
  · obtain ⟨_, _, _, h3, _⟩ := hj
    exact h3
  · intro c
    rw [hcols, List.mem_append, List.mem_filter, decide_eq_true_eq]
    constructor
    · rintro (h | h)
      exacts [.inl h, .inr h.1]
    · rintro (h | h)
      · exact .inl h
      · by_cases hc : c ∈ on
        · exact .inl ((hmem c).1 hc).1
        · exact .inr ⟨h, hc⟩

/-- **C221, what holds** (cells 9 and 11): the objects are the join, in turn, of camera boxes with images, of the associations with those, and of the result with
the laser boxes; with `optional` every laser box is in a row, without it only those with all the others. -/
theorem objects_partial [DecidableEq V] (cs : Cells V) (optional : Bool) {association camBoxes images laserBoxes : Table V} (h1 : WF association) (h2 : WF camBoxes)
    (h3 : WF images) (h4 : WF laserBoxes) (p1 : Apart camBoxes images) (p2 : Apart association camBoxes) (p3 : Apart association images)
    (p4 : Apart association laserBoxes) (p5 : Apart camBoxes laserBoxes) (p6 : Apart images laserBoxes) (k1 : ∃ c, CommonKey "key." camBoxes images c)
    (k2 : ∃ c, CommonKey "key." association camBoxes c) (k3 : ∃ c, CommonKey "key." association laserBoxes c) :
    ∃ a b t, objects cs optional association camBoxes images laserBoxes = some t ∧ IsJoin cs.null "key." false false camBoxes images a ∧
      IsJoin cs.null "key." false false association a b ∧ IsJoin cs.null "key." optional false b laserBoxes t ∧ WF a ∧ WF b ∧ WF t ∧
      ∀ c, c ∈ t.cols ↔ c ∈ association.cols ∨ c ∈ camBoxes.cols ∨ c ∈ images.cols ∨ c ∈ laserBoxes.cols := by
  obtain ⟨a, ea, ja, wa, ca⟩ := joined cs false h2 h3 p1 k1
  obtain ⟨b, eb, jb, wb, cb⟩ := joined cs false h1 wa (fun c hc hc' => ((ca c).1 hc').elim (p2 c hc) (p3 c hc)) (by
    obtain ⟨c, q1, q2, q3⟩ := k2
    exact ⟨c, q1, (ca c).2 (.inl q2), q3⟩)
  obtain ⟨t, et, jt, wt, ct⟩ := joined cs optional wb h4 (fun c hc hc' => ((cb c).1 hc).elim (fun q => p4 c q hc') fun q =>
      ((ca c).1 q).elim (fun q => p5 c q hc') fun q => p6 c q hc') (by
    obtain ⟨c, q1, q2, q3⟩ := k3
    exact ⟨c, (cb c).2 (.inl q1), q2, q3⟩)
  refine ⟨a, b, t, ?_, ja, jb, jt, wa, wb, wt, fun c => ?_⟩
  · unfold objects
    simp only [ea, eb, et, Option.bind_eq_bind, Option.bind_some]
  · rw [ct, cb, ca]
    tauto

/-- **C221, what holds** (cell 13): likewise with the key points. -/
theorem keypointObjects_partial [DecidableEq V] (cs : Cells V) {association camBoxes images keypoints laserBoxes : Table V} (h1 : WF association) (h2 : WF camBoxes)
    (h3 : WF images) (h4 : WF laserBoxes) (h5 : WF keypoints) (p1 : Apart camBoxes images) (p2 : Apart association camBoxes) (p3 : Apart association images)
    (p4 : Apart association laserBoxes) (p5 : Apart camBoxes laserBoxes) (p6 : Apart images laserBoxes) (p7 : Apart camBoxes keypoints) (p8 : Apart images keypoints)
    (p9 : Apart association keypoints) (p10 : Apart keypoints laserBoxes) (k1 : ∃ c, CommonKey "key." camBoxes images c)
    (k2 : ∃ c, CommonKey "key." association camBoxes c) (k3 : ∃ c, CommonKey "key." association laserBoxes c) (k4 : ∃ c, CommonKey "key." camBoxes keypoints c) :
    ∃ a a' b t, keypointObjects cs association camBoxes images keypoints laserBoxes = some t ∧ IsJoin cs.null "key." false false camBoxes images a ∧
      IsJoin cs.null "key." false false a keypoints a' ∧ IsJoin cs.null "key." false false association a' b ∧ IsJoin cs.null "key." false false b laserBoxes t ∧
      WF a ∧ WF a' ∧ WF b ∧ WF t := by
  obtain ⟨a, ea, ja, wa, ca⟩ := joined cs false h2 h3 p1 k1
  obtain ⟨a', ea', ja', wa', ca'⟩ := joined cs false wa h5 (fun c hc hc' => ((ca c).1 hc).elim (fun q => p7 c q hc') fun q => p8 c q hc') (by
    obtain ⟨c, q1, q2, q3⟩ := k4
    exact ⟨c, (ca c).2 (.inl q1), q2, q3⟩)
  obtain ⟨b, eb, jb, wb, cb⟩ := joined cs false h1 wa' (fun c hc hc' => ((ca' c).1 hc').elim (fun q => ((ca c).1 q).elim (p2 c hc) (p3 c hc)) (p9 c hc)) (by
    obtain ⟨c, q1, q2, q3⟩ := k2
    exact ⟨c, q1, (ca' c).2 (.inl ((ca c).2 (.inl q2))), q3⟩)
  obtain ⟨t, et, jt, wt, ct⟩ := joined cs false wb h4 (fun c hc hc' => ((cb c).1 hc).elim (fun q => p4 c q hc') fun q =>
      ((ca' c).1 q).elim (fun q => ((ca c).1 q).elim (fun q => p5 c q hc') fun q => p6 c q hc') fun q => p10 c q hc') (by
    obtain ⟨c, q1, q2, q3⟩ := k3
    exact ⟨c, (cb c).2 (.inl q1), q2, q3⟩)
  refine ⟨a, a', b, t, ?_, ja, ja', jb, jt, wa, wa', wb, wt⟩
  unfold keypointObjects
  simp only [ea, ea', eb, et, Option.bind_eq_bind, Option.bind_some]

/-- **C221, what holds** (cell 25): the rows are the pairs of an image of the camera and a box with the same keys, when those three are the keys that the tables
share. -/
theorem oneCamera_partial [DecidableEq V] (cs : Cells V) (camera : V) {images boxes : Table V} (hi : WF images) (hb : WF boxes)
    (hkeys : ∀ c, CommonKey "key." images boxes c ↔ c ∈ ["key.segment_context_name", "key.frame_timestamp_micros", "key.camera_name"]) :
    ∃ sel t : Table V, sel.cols = images.cols ∧ (∀ r, r ∈ sel.rows ↔ r ∈ images.rows ∧ (images.cols.zip r).lookup "key.camera_name" = some camera) ∧
      sel.rows.Sublist images.rows ∧ oneCamera cs camera images boxes = some t ∧ IsJoin cs.null "key." false false sel boxes t := by
  have hcam : "key.camera_name" ∈ images.cols := ((hkeys "key.camera_name").2 (by simp)).1
  obtain ⟨t, ht, hj⟩ := pandasMerge_spec cs "key." ⟨images.cols, images.rows.filter fun r => cell cs images r "key.camera_name" = camera⟩ boxes
    ⟨hi.nodup, fun r hr => hi.len r (List.mem_filter.1 hr).1⟩ hb false false
    ["key.segment_context_name", "key.frame_timestamp_micros", "key.camera_name"] (fun c => (hkeys c).symm) (by simp)
  refine ⟨⟨images.cols, images.rows.filter fun r => cell cs images r "key.camera_name" = camera⟩, t, rfl, ?_, List.filter_sublist, ht, hj⟩
  intro r
  simp only [List.mem_filter, decide_eq_true_eq]
  refine and_congr_right fun hr => ?_
  obtain ⟨k, hk, hke⟩ := List.mem_iff_getElem.1 hcam
  have hlen := hi.len r hr
  have := lookup_zip images.cols r k "key.camera_name" (r[k]'(by omega)) hi.nodup (by rw [List.getElem?_eq_getElem hk, hke])
    (List.getElem?_eq_getElem (by omega))
  unfold cell
  rw [this]
  simp

end Verif.TablesTutorial
