import Verif.Model.SegView
import Verif.Lemmas.ListM
import Mathlib.Data.List.Nodup
import Mathlib.Data.List.TakeWhile
import Mathlib.Data.Int.ModEq
import Mathlib.Data.Int.GCD
import Mathlib.Tactic.Linarith
import Mathlib.Tactic.Ring

/-!
# Pictures of camera segmentation and the choice of frames

C184: the colors of pixels.  C185: the frames that are chosen.
-/

namespace Verif.SegView

/-! ## C184 -/

/-- Values of `np.uint8`. -/
def Color.Is8 (c : Color) : Prop := (0 ≤ c.r ∧ c.r < 256) ∧ (0 ≤ c.g ∧ c.g < 256) ∧ 0 ≤ c.b ∧ c.b < 256

theorem u8_range (x : ℤ) : 0 ≤ u8 x ∧ u8 x < 256 := ⟨Int.emod_nonneg _ (by decide), Int.emod_lt_of_pos _ (by decide)⟩

theorem u8_id {x : ℤ} (h : 0 ≤ x) (h' : x < 256) : u8 x = x := Int.emod_eq_of_lt h h'

theorem Color.u8_is8 (c : Color) : c.u8.Is8 := ⟨u8_range _, u8_range _, u8_range _⟩

theorem Color.u8_id {c : Color} (h : c.Is8) : c.u8 = c := by
  obtain ⟨⟨a, b⟩, ⟨c', d⟩, e, f⟩ := h
  simp only [Color.u8, SegView.u8_id a b, SegView.u8_id c' d, SegView.u8_id e f]

/-- Setting rows: the last value of an index stays. -/
theorem setRows_length (d : List (ℕ × Color)) (rows : List Color) :
    (d.foldl (fun rows p => rows.set p.1 p.2.u8) rows).length = rows.length := by
  induction d generalizing rows with
  | nil => rfl
  | cons p d ih => rw [List.foldl_cons, ih, List.length_set]

theorem setRows_other (d : List (ℕ × Color)) (rows : List Color) {i : ℕ} (h : i ∉ d.map Prod.fst) :
    (d.foldl (fun rows p => rows.set p.1 p.2.u8) rows)[i]? = rows[i]? := by
  induction d generalizing rows with
  | nil => rfl
  | cons p d ih =>
    rw [List.map_cons, List.mem_cons, not_or] at h
    rw [List.foldl_cons, ih _ h.2, List.getElem?_set_ne (fun e => h.1 e.symm)]

theorem setRows_mem (d : List (ℕ × Color)) (hn : (d.map Prod.fst).Nodup) (rows : List Color)
    (hl : ∀ p ∈ d, p.1 < rows.length) {i : ℕ} {c : Color} (h : (i, c) ∈ d) :
    (d.foldl (fun rows p => rows.set p.1 p.2.u8) rows)[i]? = some c.u8 := by
  induction d generalizing rows with
  | nil => cases h
  | cons p d ih =>
    rw [List.map_cons, List.nodup_cons] at hn
    rw [List.foldl_cons]
    rcases List.mem_cons.1 h with h | h
    · subst h
      rw [setRows_other _ _ hn.1, List.getElem?_set_self]
      exact hl _ List.mem_cons_self
    · refine ih hn.2 _ ?_ h
      intro q hq
      rw [List.length_set]
      exact hl q (List.mem_cons_of_mem _ hq)

/-- C184: a mapping with different classes has a table if and only if it has a class; a class with a color has this color, as
8 bits; every other class up to the largest is black; there are no further rows. -/
theorem colorMap_spec {d : List (ℕ × Color)} (hn : (d.map Prod.fst).Nodup) :
    (d = [] → colorMap d = none) ∧ (d ≠ [] → ∃ m, colorMap d = some m ∧ (∀ p ∈ d, m[p.1]? = some p.2.u8) ∧
      (∀ i < m.length, i ∉ d.map Prod.fst → m[i]? = some ⟨0, 0, 0⟩) ∧ ∀ i, i < m.length ↔ ∃ p ∈ d, i ≤ p.1) := by
  constructor
  · rintro rfl
    rfl
  · intro hd
    unfold colorMap
    cases hm : (d.map Prod.fst).max? with
    | none =>
      rw [List.max?_eq_none_iff] at hm
      exact absurd (List.map_eq_nil_iff.1 hm) hd
    | some m =>
      obtain ⟨h1, h2⟩ := List.max?_eq_some_iff.1 hm
      have hlt : ∀ p ∈ d, p.1 < (List.replicate (m + 1) (⟨0, 0, 0⟩ : Color)).length := by
        intro p hp
        rw [List.length_replicate]
        have := h2 p.1 (List.mem_map.2 ⟨p, hp, rfl⟩)
        omega
      refine ⟨_, rfl, ?_, ?_, ?_⟩
      · exact fun p hp => setRows_mem d hn _ hlt (by simpa using hp)
      · intro i hi hk
        rw [setRows_other _ _ hk]
        rw [setRows_length] at hi
        rw [List.getElem?_eq_getElem hi]
        simp
      · intro i
        rw [setRows_length, List.length_replicate]
        constructor
        · intro h
          obtain ⟨p, hp, rfl⟩ := List.mem_map.1 h1
          exact ⟨p, hp, by omega⟩
        · rintro ⟨p, hp, hi⟩
          have := h2 p.1 (List.mem_map.2 ⟨p, hp, rfl⟩)
          omega

example : colorMap [(2, ⟨1, 2, 300⟩), (0, ⟨5, 5, 5⟩)] = some [⟨5, 5, 5⟩, ⟨0, 0, 0⟩, ⟨1, 2, 44⟩] := by decide

/-- C184: the default table gives the 29 classes the listed colors. -/
theorem default_map : colorMap segmentationColors = some (segmentationColors.map Prod.snd) := by decide

/-- C184: of the default colors only those of the own vehicle, the ground, and other moving and standing things agree. -/
theorem default_colors {p q : ℕ × Color} (hp : p ∈ segmentationColors) (hq : q ∈ segmentationColors) :
    p.2 = q.2 ↔ p.1 = q.1 ∨ (p.1 ∈ [1, 26, 27, 28] ∧ q.1 ∈ [1, 26, 27, 28]) := by
  have h : ∀ p ∈ segmentationColors, ∀ q ∈ segmentationColors,
      p.2 = q.2 ↔ p.1 = q.1 ∨ (p.1 ∈ [1, 26, 27, 28] ∧ q.1 ∈ [1, 26, 27, 28]) := by decide
  exact h p hp q hq

/-! ### Classes -/

/-- A picture that is not squeezed by mistake: two dimensions and a width other than one, or a last dimension of one. -/
def Picture (l : Arr ℤ) (h w : ℕ) : Prop := (l.dims = [h, w] ∧ w ≠ 1) ∨ l.dims = [h, w, 1]

theorem squeeze_picture {l : Arr ℤ} {h w : ℕ} (hl : Picture l h w) : squeeze l = some ⟨[h, w], l.data⟩ := by
  obtain ⟨dims, data⟩ := l
  rcases hl with ⟨rfl, hw⟩ | rfl
  · simp [squeeze, hw]
  · simp [squeeze]

theorem row_nat {α : Type} (rows : List α) {i : ℤ} (h : 0 ≤ i) : row rows i = rows[i.toNat]? := by
  unfold row
  rw [if_pos h]

theorem row_some {α : Type} {rows : List α} {i : ℤ} : (row rows i).isSome ↔ -(rows.length : ℤ) ≤ i ∧ i < rows.length := by
  unfold row
  split
  · simp
    omega
  · split
    · simp
      omega
    · simp
      omega

theorem mapM_some_iff {α β : Type} {f : α → Option β} {l : List α} {r : List β} :
    l.mapM f = some r ↔ r.length = l.length ∧ ∀ (i : ℕ) a, l[i]? = some a → f a = r[i]? ∧ (f a).isSome := by
  induction l generalizing r with
  | nil =>
    rw [List.mapM_nil]
    constructor
    · intro h
      cases h
      simp
    · rintro ⟨h, -⟩
      rw [List.eq_nil_of_length_eq_zero h]
      rfl
  | cons x l ih =>
    rw [List.mapM_cons]
    simp only [Option.bind_eq_bind, Option.bind_eq_some_iff, Option.pure_def, Option.some.injEq]
    constructor
    · rintro ⟨y, hy, ys, hys, rfl⟩
      obtain ⟨h1, h2⟩ := ih.1 hys
      refine ⟨by simp [h1], ?_⟩
      intro i a ha
      cases i with
      | zero =>
        simp only [List.getElem?_cons_zero, Option.some.injEq] at ha ⊢
        subst ha
        simp [hy]
      | succ i =>
        simp only [List.getElem?_cons_succ] at ha ⊢
        exact h2 i a ha
    · rintro ⟨h1, h2⟩
      cases r with
      | nil => simp at h1
      | cons y ys =>
        refine ⟨y, ?_, ys, ih.2 ⟨by simpa using h1, ?_⟩, rfl⟩
        · simpa using (h2 0 x rfl).1
        · intro i a ha
          simpa using h2 (i + 1) a (by simpa using ha)

/-- C184: a picture of classes that the table has becomes a picture of the same height and width in which every pixel has the
color of its class; it is an error exactly if some class is outside. -/
theorem semantic_spec {l : Arr ℤ} {h w : ℕ} (hl : Picture l h w) (map : List Color) (hc : ∀ c ∈ l.data, 0 ≤ c) :
    (∀ out, semanticToRgb l map = some out ↔ (out.dims = [h, w] ∧ out.data.length = l.data.length ∧
      ∀ (i : ℕ) c, l.data[i]? = some c → c < map.length ∧ out.data[i]? = map[c.toNat]?)) ∧
    (semanticToRgb l map = none ↔ ∃ c ∈ l.data, (map.length : ℤ) ≤ c) := by
  unfold semanticToRgb
  rw [squeeze_picture hl]
  simp only [Option.bind_eq_bind, Option.bind_some, Option.pure_def]
  have key : ∀ r, l.data.mapM (row map) = some r ↔ (r.length = l.data.length ∧
      ∀ (i : ℕ) c, l.data[i]? = some c → c < map.length ∧ r[i]? = map[c.toNat]?) := by
    intro r
    rw [mapM_some_iff]
    refine and_congr_right fun _ => forall_congr' fun i => forall_congr' fun c => imp_congr_right fun hi => ?_
    have h0 := hc c (List.mem_of_getElem? hi)
    rw [row_some, row_nat _ h0]
    constructor
    · rintro ⟨h1, -, h2⟩
      exact ⟨h2, h1.symm⟩
    · rintro ⟨h1, h2⟩
      exact ⟨h2.symm, by omega, h1⟩
  constructor
  · intro out
    rw [Option.bind_eq_some_iff]
    constructor
    · rintro ⟨r, hr, h2⟩
      cases h2
      exact ⟨rfl, (key r).1 hr⟩
    · rintro ⟨h1, h2⟩
      refine ⟨out.data, (key _).2 h2, ?_⟩
      obtain ⟨d, x⟩ := out
      dsimp only at h1
      rw [h1]
  · constructor
    · intro hn
      by_contra hcon
      push Not at hcon
      have : ∃ r, l.data.mapM (row map) = some r := by
        refine ⟨l.data.map fun c => map.getD c.toNat ⟨0, 0, 0⟩, (key _).2 ⟨by simp, ?_⟩⟩
        intro i c hi
        have hm := List.mem_of_getElem? hi
        have h1 := hcon c hm
        have h0 := hc c hm
        refine ⟨h1, ?_⟩
        rw [List.getElem?_map, hi, Option.map_some, List.getD_eq_getElem?_getD]
        have : c.toNat < map.length := by omega
        rw [List.getElem?_eq_getElem this]
        rfl
      obtain ⟨r, hr⟩ := this
      rw [hr] at hn
      cases hn
    · rintro ⟨c, hm, hle⟩
      cases hr : l.data.mapM (row map) with
      | none => rfl
      | some r =>
        obtain ⟨i, hi, rfl⟩ := List.getElem_of_mem hm
        have := ((key r).1 hr).2 i _ (List.getElem?_eq_getElem hi)
        omega

/-- A picture of two pixels with its table. -/
example : Picture ⟨[1, 2], [1, 0]⟩ 1 2 ∧
    semanticToRgb ⟨[1, 2], [1, 0]⟩ [⟨0, 0, 0⟩, ⟨9, 8, 7⟩] = some ⟨[1, 2], [⟨9, 8, 7⟩, ⟨0, 0, 0⟩]⟩ := by
  refine ⟨.inl ⟨rfl, by decide⟩, ?_⟩
  simp [semanticToRgb, squeeze, row]

/-- C184 is violated: a picture of width one loses its width, and has no picture of instances at all. -/
theorem width_one_violated : ∃ l : Arr ℤ, l.dims = [3, 1] ∧
    (∃ out, semanticToRgb l [⟨0, 0, 0⟩] = some out ∧ out.dims = [3]) ∧
    ∀ (wrap : ℤ → ℤ) (map : List Color) (prime delta : ℤ), panopticToRgb wrap l l map prime delta = none := by
  refine ⟨⟨[3, 1], [0, 0, 0]⟩, rfl, ⟨⟨[3], [⟨0, 0, 0⟩, ⟨0, 0, 0⟩, ⟨0, 0, 0⟩]⟩, ?_, rfl⟩, ?_⟩
  · simp [semanticToRgb, squeeze, row]
  · intro wrap map prime delta
    have h1 : squeeze (⟨[3, 1], [0, 0, 0]⟩ : Arr ℤ) = some ⟨[3], [0, 0, 0]⟩ := rfl
    have h2 : squeeze (⟨[3], [0, 0, 0]⟩ : Arr ℤ) = some ⟨[3], [0, 0, 0]⟩ := rfl
    unfold panopticToRgb semanticToRgb
    rw [h1, Option.bind_eq_bind, Option.bind_some, Option.bind_eq_bind, Option.bind_some, h2]
    cases hr : row map 0 <;> simp [guard, hr]

/-! ### Instances -/

/-- The types of instance labels: signed and wide enough, or unsigned with at least eight bits. -/
inductive Kind where
  | signed
  | unsigned (bits : ℕ)

/-- What a type makes of a result. -/
def Kind.wrap : Kind → ℤ → ℤ
  | .signed, x => x
  | .unsigned b, x => x % 2 ^ b

/-- The product of instance and prime does not overflow. -/
def Kind.Fits : Kind → ℤ → Prop
  | .signed, _ => True
  | .unsigned b, x => 8 ≤ b ∧ x < 2 ^ b

theorem wrap_mod {k : Kind} {y : ℤ} (hk : k.Fits y) (x : ℤ) : k.wrap x % 256 = x % 256 := by
  cases k with
  | signed => rfl
  | unsigned b =>
    have hb : (8 : ℕ) ≤ b := hk.1
    show x % 2 ^ b % 256 = x % 256
    apply Int.emod_emod_of_dvd
    exact (by norm_num : (256 : ℤ) = 2 ^ 8) ▸ pow_dvd_pow 2 hb

theorem wrap_id {k : Kind} {y : ℤ} (hk : k.Fits y) (h0 : 0 ≤ y) : k.wrap y = y := by
  cases k with
  | signed => rfl
  | unsigned b => exact Int.emod_eq_of_lt h0 hk.2

/-- The offset that is meant: between `-delta` and `delta`. -/
def offset (prime delta inst : ℤ) : ℤ := inst * prime % (2 * delta) - delta

/-- The green value of a pixel, whatever the type of the instance labels: the sum of the green of the class and the offset
to 8 bits. -/
theorem green_eq {k : Kind} {prime delta inst : ℤ} (hp : 0 ≤ prime) (hi : 0 < inst) (hk : k.Fits (inst * prime)) (c : Color) :
    instanceColor k.wrap prime delta c inst = ⟨c.r, (c.g + offset prime delta inst) % 256, c.b⟩ := by
  unfold instanceColor
  rw [if_pos hi]
  congr 1
  have h0 : 0 ≤ inst * prime := mul_nonneg hi.le hp
  have : u8 (k.wrap (c.g + noise k.wrap prime delta inst)) = (c.g + offset prime delta inst) % 256 := by
    unfold u8 noise offset
    rw [wrap_mod hk, wrap_id hk h0, Int.add_emod, wrap_mod hk, ← Int.add_emod, mul_comm delta 2]
  rw [this]
  have h1 := Int.emod_nonneg (c.g + offset prime delta inst) (show (256 : ℤ) ≠ 0 by decide)
  have h2 := Int.emod_lt_of_pos (c.g + offset prime delta inst) (show (0 : ℤ) < 256 by decide)
  omega

/-- C184 is proved where nothing is cut off: a pixel of an instance has the color of its class with the green value moved by
the offset if the sum has 8 bits; a pixel without instance has the color of its class. -/
theorem instance_color_partial {k : Kind} {prime delta inst : ℤ} (hp : 0 ≤ prime) {c : Color} (hc : c.Is8) :
    (inst ≤ 0 → instanceColor k.wrap prime delta c inst = c) ∧
    (0 < inst → k.Fits (inst * prime) → 0 ≤ c.g + offset prime delta inst → c.g + offset prime delta inst < 256 →
      instanceColor k.wrap prime delta c inst = ⟨c.r, c.g + offset prime delta inst, c.b⟩) := by
  constructor
  · intro hi
    obtain ⟨-, ⟨h1, h2⟩, -⟩ := hc
    unfold instanceColor
    rw [if_neg (not_lt.2 hi), u8_id h1 h2]
    obtain ⟨r, g, b⟩ := c
    dsimp only at h1 h2 ⊢
    congr 1
    omega
  · intro hi hk h1 h2
    rw [green_eq hp hi hk, Int.emod_eq_of_lt h1 h2]

/-- C184: all colors have 8 bits. -/
theorem instance_is8 (wrap : ℤ → ℤ) (prime delta inst : ℤ) {c : Color} (hc : c.Is8) :
    (instanceColor wrap prime delta c inst).Is8 := by
  obtain ⟨h1, h2, h3⟩ := hc
  refine ⟨h1, ?_, h3⟩
  show 0 ≤ max 0 _ ∧ max 0 _ < _
  omega

/-- C184: the offset is less than `delta` and at least `-delta`. -/
theorem offset_range {prime delta : ℤ} (hd : 0 < delta) (inst : ℤ) :
    -delta ≤ offset prime delta inst ∧ offset prime delta inst < delta := by
  unfold offset
  have h1 := Int.emod_nonneg (inst * prime) (show 2 * delta ≠ 0 by omega)
  have h2 := Int.emod_lt_of_pos (inst * prime) (show 0 < 2 * delta by omega)
  omega

/-- C184: two instances of one class whose numbers differ by less than twice `delta` have different colors, if `prime` has no
factor in common with twice `delta`, which is at most 256. -/
theorem instances_differ_partial {k : Kind} {prime delta i j : ℤ} (hp : 0 ≤ prime) (hd : 0 < delta) (hd' : delta ≤ 128)
    (hcop : Int.gcd (2 * delta) prime = 1) (hi : 0 < i) (hij : i < j) (hj : j < i + 2 * delta) (hki : k.Fits (i * prime))
    (hkj : k.Fits (j * prime)) (c : Color) : instanceColor k.wrap prime delta c i ≠ instanceColor k.wrap prime delta c j := by
  rw [green_eq hp hi hki, green_eq hp (hi.trans hij) hkj]
  intro h
  have h1 : (c.g + offset prime delta i) % 256 = (c.g + offset prime delta j) % 256 := congrArg Color.g h
  obtain ⟨a1, a2⟩ := offset_range (prime := prime) hd i
  obtain ⟨b1, b2⟩ := offset_range (prime := prime) hd j
  have h2 : offset prime delta i = offset prime delta j := by omega
  have h3 : i * prime % (2 * delta) = j * prime % (2 * delta) := by
    unfold offset at h2
    omega
  have h4 : (2 * delta) ∣ (j - i) * prime := by
    rw [sub_mul]
    exact Int.ModEq.dvd h3
  have h5 : (2 * delta) ∣ j - i := Int.dvd_of_dvd_mul_left_of_gcd_one h4 hcop
  have := Int.le_of_dvd (by omega) h5
  omega

/-- The default prime and delta meet the conditions, and the labels of one picture in 16 bits do up to instance 1598. -/
theorem instances_example : Int.gcd (2 * 50) 41 = 1 ∧ (Kind.unsigned 16).Fits (1598 * 41) ∧ Kind.signed.Fits (5000 * 41) :=
  ⟨by decide, ⟨by decide, by norm_num⟩, trivial⟩

/-- C184 is violated: the green value is not cut off at 0 and 255 but continues at the other end, since it is clipped after it
was stored; a car, which has no green, gets green 216 where the offset is -40. -/
theorem clip_violated : ∃ c : Color, c.Is8 ∧ (2, c) ∈ segmentationColors ∧ offset 41 50 10 = -40 ∧
    (instanceColor Kind.signed.wrap 41 50 c 10).g = 216 ∧ (instanceColor (Kind.unsigned 16).wrap 41 50 c 10).g = 216 ∧
    max 0 (min 255 (c.g + offset 41 50 10)) = 0 := by
  refine ⟨⟨0, 0, 142⟩, ?_, ?_, ?_, ?_, ?_, ?_⟩
  · exact ⟨⟨by decide, by decide⟩, ⟨by decide, by decide⟩, by decide, by decide⟩
  · decide
  all_goals decide

/-- C184 is violated: instances a hundred apart, and instance 50 and no instance, have one color; with 16 bits some less than a
hundred apart have, once the product overflows. -/
theorem instances_violated (c : Color) (hc : c.Is8) :
    instanceColor Kind.signed.wrap 41 50 c 1 = instanceColor Kind.signed.wrap 41 50 c 101 ∧
    instanceColor Kind.signed.wrap 41 50 c 50 = instanceColor Kind.signed.wrap 41 50 c 0 ∧
    instanceColor (Kind.unsigned 16).wrap 41 50 c 1503 = instanceColor (Kind.unsigned 16).wrap 41 50 c 1599 := by
  refine ⟨?_, ?_, ?_⟩
  · rfl
  · rw [(instance_color_partial (k := .signed) (by decide) hc).1 (le_refl 0), green_eq (k := .signed) (prime := 41) (inst := 50) (by decide) (by decide) trivial]
    obtain ⟨-, ⟨h1, h2⟩, -⟩ := hc
    rw [show offset 41 50 50 = 0 by decide, add_zero, Int.emod_eq_of_lt h1 h2]
  · rfl

/-- C184: a picture of classes and instances has in every pixel the color of its class and instance.  The width is not one. -/
theorem panoptic_spec {s t : Arr ℤ} {h w : ℕ} (hs : Picture s h w) (ht : Picture t h w) (hw : w ≠ 1)
    (hlen : s.data.length = t.data.length) (map : List Color) (hc : ∀ c ∈ s.data, 0 ≤ c) (wrap : ℤ → ℤ) (prime delta : ℤ) :
    (∀ out, panopticToRgb wrap s t map prime delta = some out ↔ (out.dims = [h, w] ∧ out.data.length = s.data.length ∧
      ∀ (i : ℕ) c n, s.data[i]? = some c → t.data[i]? = some n → c < map.length ∧
        out.data[i]? = (map[c.toNat]?).map fun col => instanceColor wrap prime delta col n)) ∧
    (panopticToRgb wrap s t map prime delta = none ↔ ∃ c ∈ s.data, (map.length : ℤ) ≤ c) := by
  have hp : Picture ⟨[h, w], s.data⟩ h w := .inl ⟨rfl, hw⟩
  obtain ⟨e1, e2⟩ := semantic_spec hp map hc
  have hun : panopticToRgb wrap s t map prime delta = (semanticToRgb ⟨[h, w], s.data⟩ map).bind fun image =>
      (guard (image.dims.length = 2 ∧ image.dims = [h, w]) : Option Unit).bind fun _ =>
        some ⟨image.dims, List.zipWith (instanceColor wrap prime delta) image.data t.data⟩ := by
    unfold panopticToRgb
    rw [squeeze_picture hs, squeeze_picture ht]
    rfl
  rw [hun]
  cases hr : semanticToRgb ⟨[h, w], s.data⟩ map with
  | none =>
    obtain ⟨c, hm, hle⟩ := e2.1 hr
    refine ⟨?_, ?_⟩
    · intro out
      constructor
      · intro h
        cases h
      · rintro ⟨-, -, h3⟩
        obtain ⟨i, hi, rfl⟩ := List.getElem_of_mem hm
        have hi' : i < t.data.length := by
          rw [← hlen]
          exact hi
        have := (h3 i _ _ (List.getElem?_eq_getElem hi) (List.getElem?_eq_getElem hi')).1
        omega
    · exact iff_of_true rfl ⟨c, hm, hle⟩
  | some image =>
    obtain ⟨d1, d2, d3⟩ := (e1 image).1 hr
    dsimp only at d2 d3
    have hres : ((some image).bind fun image : Arr Color =>
        (guard (image.dims.length = 2 ∧ image.dims = [h, w]) : Option Unit).bind fun _ =>
          some (⟨image.dims, List.zipWith (instanceColor wrap prime delta) image.data t.data⟩ : Arr Color)) =
        some ⟨[h, w], List.zipWith (instanceColor wrap prime delta) image.data t.data⟩ := by
      rw [Option.bind_some, d1]
      simp
    rw [hres]
    have hget : ∀ (i : ℕ) c n, s.data[i]? = some c → t.data[i]? = some n →
        (List.zipWith (instanceColor wrap prime delta) image.data t.data)[i]? =
          (map[c.toNat]?).map fun col => instanceColor wrap prime delta col n := by
      intro i c n hi hn
      rw [List.getElem?_zipWith, (d3 i c hi).2, hn]
      cases map[c.toNat]? <;> rfl
    constructor
    · intro out
      constructor
      · intro h
        cases h
        refine ⟨rfl, by simp [d2, hlen], fun i c n hi hn => ⟨(d3 i c hi).1, hget i c n hi hn⟩⟩
      · rintro ⟨h1, h2, h3⟩
        obtain ⟨d, x⟩ := out
        dsimp only at h1 h2 h3
        rw [h1]
        congr 2
        apply List.ext_getElem?
        intro i
        by_cases hi : i < s.data.length
        · have hi' : i < t.data.length := by omega
          have g1 := List.getElem?_eq_getElem hi
          have g2 := List.getElem?_eq_getElem hi'
          rw [hget i _ _ g1 g2, (h3 i _ _ g1 g2).2]
        · rw [List.getElem?_eq_none (by simp only [List.length_zipWith]; omega), List.getElem?_eq_none (by omega)]
    · refine iff_of_false (by simp) ?_
      rintro ⟨c, hm, hle⟩
      have := e2.2 ⟨c, hm, hle⟩
      rw [hr] at this
      cases this

/-! ## C185 -/

/-- A frame with a label in its first image. -/
def Labelled (f : Frame) : Bool := f.first.any Image.labelled

/-- The sequence of a frame. -/
def seqOf (f : Frame) : Option String := f.first.map Image.sequence

theorem loop_spec (k : ℤ) (s : String) (frames : List Frame) (hf : ∀ f ∈ frames, f.first.isSome) (acc : List Frame)
    (hk : (acc.length : ℤ) < k) :
    loadLoop k frames acc (some s) = some (acc ++ (frames.filter Labelled).take
      (min (((frames.filter Labelled).takeWhile fun f => seqOf f == some s).length + 1) (k.toNat - acc.length)), some s) := by
  induction frames generalizing acc with
  | nil => simp [loadLoop]
  | cons f frames ih =>
    obtain ⟨i, hi⟩ := Option.isSome_iff_exists.1 (hf f List.mem_cons_self)
    have hrest : ∀ g ∈ frames, g.first.isSome := fun g hg => hf g (List.mem_cons_of_mem _ hg)
    unfold loadLoop
    rw [hi]
    dsimp only
    by_cases hl : i.labelled = true
    · have hL : Labelled f = true := by simp [Labelled, hi, hl]
      rw [if_pos hl, List.filter_cons_of_pos hL]
      simp only [Option.getD_some, List.length_append, List.length_singleton]
      by_cases hs : i.sequence = s
      · have hq : (seqOf f == some s) = true := by simp [seqOf, hi, hs]
        rw [List.takeWhile_cons_of_pos (p := fun f => seqOf f == some s) hq]
        by_cases hkk : k ≤ ((acc.length + 1 : ℕ) : ℤ)
        · rw [if_pos (.inr hkk)]
          have : k.toNat - acc.length = 1 := by omega
          rw [this, show min ((f :: (frames.filter Labelled).takeWhile fun f => seqOf f == some s).length + 1) 1 = 1 by simp]
          simp
        · rw [if_neg (by rintro (h | h); exacts [h hs, hkk h])]
          rw [ih hrest (acc ++ [f]) (by simp only [List.length_append, List.length_singleton]; omega)]
          have e1 : k.toNat - acc.length = (k.toNat - (acc ++ [f]).length) + 1 := by
            simp only [List.length_append, List.length_singleton]
            omega
          rw [e1, List.length_cons, Nat.add_min_add_right, List.take_succ_cons, List.append_assoc]
          rfl
      · have hq : ¬ (seqOf f == some s) = true := by simp [seqOf, hi, hs]
        rw [if_pos (.inl hs), List.takeWhile_cons_of_neg (p := fun f => seqOf f == some s) hq]
        have : min (([] : List Frame).length + 1) (k.toNat - acc.length) = 1 := by
          simp only [List.length_nil]
          omega
        rw [this]
        simp
    · have hL : ¬ Labelled f = true := by simp [Labelled, hi, hl]
      rw [if_neg hl, List.filter_cons_of_neg hL]
      exact ih hrest acc hk

/-- C185: what is chosen, for all frames with images: of the frames with a label in the first image, in order, those of the
first sequence before any other, and one more, but no more than asked for, and at least one. -/
theorem load_spec (k : ℤ) (frames : List Frame) (hf : ∀ f ∈ frames, f.first.isSome) :
    load frames k = some (match (frames.filter Labelled).head? with
      | none => ([], none)
      | some f => ((frames.filter Labelled).take
          (min (((frames.filter Labelled).takeWhile fun g => seqOf g == seqOf f).length + 1) (max k 1).toNat), seqOf f)) := by
  unfold load
  induction frames with
  | nil => rfl
  | cons f frames ih =>
    obtain ⟨i, hi⟩ := Option.isSome_iff_exists.1 (hf f List.mem_cons_self)
    have hrest : ∀ g ∈ frames, g.first.isSome := fun g hg => hf g (List.mem_cons_of_mem _ hg)
    unfold loadLoop
    rw [hi]
    dsimp only
    by_cases hl : i.labelled = true
    · have hL : Labelled f = true := by simp [Labelled, hi, hl]
      have hq : seqOf f = some i.sequence := by simp [seqOf, hi]
      rw [if_pos hl, List.filter_cons_of_pos hL, List.head?_cons]
      simp only [Option.getD_none, List.nil_append, List.length_singleton, ne_eq, not_true_eq_false, false_or]
      rw [hq, List.takeWhile_cons_of_pos (by simp [hq])]
      by_cases hk : k ≤ ((1 : ℕ) : ℤ)
      · rw [if_pos hk]
        have : (max k 1).toNat = 1 := by omega
        rw [this, show min ((f :: (frames.filter Labelled).takeWhile fun g => seqOf g == some i.sequence).length + 1) 1 = 1 by simp]
        simp
      · rw [if_neg hk, loop_spec k _ frames hrest [f] (by simp only [List.length_singleton]; omega)]
        have e1 : (max k 1).toNat = (k.toNat - [f].length) + 1 := by
          simp only [List.length_singleton]
          omega
        rw [e1, List.length_cons, Nat.add_min_add_right, List.take_succ_cons]
        rfl
    · have hL : ¬ Labelled f = true := by simp [Labelled, hi, hl]
      rw [if_neg hl, List.filter_cons_of_neg hL]
      exact ih hrest

/-- C185 is proved for frames of one sequence: the first `k` frames with labels and their sequence. -/
theorem load_partial {k : ℤ} (hk : 1 ≤ k) {frames : List Frame} (hf : ∀ f ∈ frames, f.first.isSome) {s : String}
    (hs : ∀ f ∈ frames, Labelled f = true → seqOf f = some s) :
    load frames k = some ((frames.filter Labelled).take k.toNat, if frames.any Labelled then some s else none) := by
  rw [load_spec k frames hf]
  have hall : ∀ f ∈ frames.filter Labelled, seqOf f = some s := by
    intro f hm
    obtain ⟨h1, h2⟩ := List.mem_filter.1 hm
    exact hs f h1 h2
  cases hL : frames.filter Labelled with
  | nil =>
    have : frames.any Labelled = false := by
      rw [Bool.eq_false_iff]
      intro h
      obtain ⟨f, h1, h2⟩ := List.any_eq_true.1 h
      have := List.mem_filter.2 ⟨h1, h2⟩
      rw [hL] at this
      cases this
    rw [this]
    simp
  | cons f l =>
    rw [hL] at hall
    have : frames.any Labelled = true := by
      have hm : f ∈ frames.filter Labelled := by rw [hL]; exact List.mem_cons_self
      obtain ⟨h1, h2⟩ := List.mem_filter.1 hm
      exact List.any_eq_true.2 ⟨f, h1, h2⟩
    rw [this, if_pos rfl, List.head?_cons]
    dsimp only
    have hf' := hall f List.mem_cons_self
    have htw : (f :: l).takeWhile (fun g => seqOf g == seqOf f) = f :: l := by
      rw [List.takeWhile_eq_self_iff]
      intro g hg
      rw [hall g hg, hf']
      simp
    rw [htw, hf', show max k 1 = k by omega]
    congr 2
    rw [List.take_eq_take_iff]
    omega

/-- Three frames, two with labels of one sequence. -/
example : load [⟨0, some ⟨true, "a"⟩⟩, ⟨1, some ⟨false, ""⟩⟩, ⟨2, some ⟨true, "a"⟩⟩] 3 =
    some ([⟨0, some ⟨true, "a"⟩⟩, ⟨2, some ⟨true, "a"⟩⟩], some "a") := by
  simp [load, loadLoop]

theorem loop_more {k : ℤ} (frames more : List Frame) {acc : List Frame} {s : Option String} {r : List Frame × Option String}
    (h : loadLoop k frames acc s = some r) (hstop : (k : ℤ) ≤ r.1.length) (hacc : (acc.length : ℤ) < k) :
    loadLoop k (frames ++ more) acc s = some r := by
  induction frames generalizing acc s with
  | nil =>
    simp only [loadLoop, Option.some.injEq] at h
    subst h
    dsimp only at hstop
    omega
  | cons f frames ih =>
    rw [List.cons_append]
    unfold loadLoop at h ⊢
    cases hf : f.first with
    | none => rw [hf] at h; cases h
    | some i =>
      rw [hf] at h
      dsimp only at h ⊢
      by_cases hl : i.labelled = true
      · rw [if_pos hl] at h ⊢
        by_cases hc : i.sequence ≠ s.getD i.sequence ∨ k ≤ ((acc ++ [f]).length : ℤ)
        · rw [if_pos hc] at h ⊢
          exact h
        · rw [if_neg hc] at h ⊢
          rw [not_or, not_le] at hc
          exact ih h hc.2
      · rw [if_neg hl] at h ⊢
        exact ih h hacc

/-- C185: once as many frames as asked for are found the rest of the data set is not read. -/
theorem load_more {k : ℤ} (hk : 1 ≤ k) {frames : List Frame} {r : List Frame × Option String} (h : load frames k = some r)
    (hr : k ≤ r.1.length) (more : List Frame) : load (frames ++ more) k = some r :=
  loop_more frames more h hr (by simp only [List.length_nil]; omega)

/-- C185 is violated: the last frame may be of another sequence than the one returned. -/
theorem sequence_violated : ∃ (frames : List Frame) (r : List Frame), load frames 3 = some (r, some "a") ∧
    ∃ f ∈ r, seqOf f = some "b" := by
  refine ⟨[⟨0, some ⟨true, "a"⟩⟩, ⟨1, some ⟨true, "b"⟩⟩, ⟨2, some ⟨true, "a"⟩⟩], [⟨0, some ⟨true, "a"⟩⟩, ⟨1, some ⟨true, "b"⟩⟩], ?_,
    ⟨1, some ⟨true, "b"⟩⟩, by simp, rfl⟩
  simp [load, loadLoop]

/-- C185 is violated: asked for no frames it returns one; a frame without images is an error even if others have labels. -/
theorem count_violated : (∃ r, load [⟨0, some ⟨true, "a"⟩⟩] 0 = some r ∧ r.1.length = 1) ∧
    load [⟨0, none⟩, ⟨1, some ⟨true, "a"⟩⟩] 3 = none := by
  constructor
  · exact ⟨([⟨0, some ⟨true, "a"⟩⟩], some "a"), by simp [load, loadLoop], rfl⟩
  · simp [load, loadLoop]

end Verif.SegView
