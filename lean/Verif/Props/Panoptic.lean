import Verif.Props.PanopticIds
import Mathlib.Tactic.Ring

/-! C40 (decoding several frames) and C41 (saving a panoptic label and decoding it). -/

namespace Verif.Panoptic

open Verif.ListM

/-! ### Specification -/

/-- `m` is the mapping that decides for the instance `i` of a frame: the last one for that instance. -/
def Applies (f : Frame) (i : ℕ) (m : Mapping) : Prop := ∃ a b, f.mapping = a ++ m :: b ∧ m.loc = i ∧ ∀ m' ∈ b, m'.loc ≠ i

/-- The instance `i` of a frame is mapped to `g`, or is left alone. -/
def NewId (r : Remap) (f : Frame) (i : ℕ) (g : ℤ) (tracked : ℕ) : Prop :=
  (∃ m, Applies f i m ∧ r.lookup (f.seq, m.glob) = some g ∧ tracked = if m.tracked then 1 else 0) ∨
    ((∀ m ∈ f.mapping, m.loc ≠ i) ∧ g = i ∧ tracked = 0)

/-! ### One pixel -/

theorem encodePx_parts {d s i : ℕ} (hi : i < d) (h : (s + 1) * d ≤ 2 ^ 32) :
    encodePx d s i / d = s ∧ encodePx d s i % d = i := by
  have h1 : s * d + i < 2 ^ 32 := by
    have : (s + 1) * d = s * d + d := by ring
    omega
  have hd : 0 < d := by omega
  have h2 : s ≤ s * d := Nat.le_mul_of_pos_right s hd
  have e : encodePx d s i = s * d + i := by
    unfold encodePx u32
    rw [Nat.mod_eq_of_lt (by omega : s < 2 ^ 32), Nat.mod_eq_of_lt (by omega : i < 2 ^ 32), Nat.mod_eq_of_lt h1]
  rw [e]
  exact ⟨by rw [Nat.mul_comm, Nat.mul_add_div hd, Nat.div_eq_of_lt hi, Nat.add_zero],
    by rw [Nat.mul_comm, Nat.mul_add_mod, Nat.mod_eq_of_lt hi]⟩

theorem remapPx_spec (r : Remap) (seq : String) (w i : ℕ) : ∀ (ms : List Mapping) (acc out : ℕ × ℕ),
    remapPx r seq w i ms acc = some out →
    (∃ (m : Mapping) (g : ℤ), (∃ a b, ms = a ++ m :: b ∧ m.loc = (i : ℤ) ∧ ∀ m' ∈ b, m'.loc ≠ (i : ℤ)) ∧ r.lookup (seq, m.glob) = some g ∧
      out = ((g % (w : ℤ)).toNat, if m.tracked then 1 else 0)) ∨ ((∀ m ∈ ms, m.loc ≠ i) ∧ out = acc) := by
  intro ms
  induction ms with
  | nil =>
    intro acc out h
    simp only [remapPx, Option.some.injEq] at h
    exact Or.inr ⟨by simp, h.symm⟩
  | cons m ms ih =>
    intro acc out h
    rw [remapPx] at h
    cases hg : r.lookup (seq, m.glob) with
    | none => simp [hg] at h
    | some g =>
      simp only [hg, Option.bind_eq_bind, Option.bind_some] at h
      rcases ih _ _ h with ⟨m', g', ⟨a, b, e, h1, h2⟩, h3, h4⟩ | ⟨h1, h2⟩
      · exact Or.inl ⟨m', g', ⟨m :: a, b, by rw [e, List.cons_append], h1, h2⟩, h3, h4⟩
      · by_cases hi : (i : ℤ) = m.loc
        · rw [if_pos hi] at h2
          exact Or.inl ⟨m, g, ⟨[], ms, rfl, hi.symm, h1⟩, hg, h2⟩
        · rw [if_neg hi] at h2
          refine Or.inr ⟨fun m' hm' => ?_, h2⟩
          rcases List.mem_cons.1 hm' with rfl | hm'
          · exact fun e => hi e.symm
          · exact h1 m' hm'

/-- What one frame becomes.  `x` is a pixel of the frame, `y` the pixel of the result and `t` that of the tracked mask. -/
def PixelOk (r : Option Remap) (f : Frame) (d : ℤ) (x y t : ℕ) : Prop :=
  (x % f.divisor.toNat : ℤ) < d ∧
  match r with
  | some r => ∃ g, NewId r f (x % f.divisor.toNat) g t ∧
      y = encodePx d.toNat (x / f.divisor.toNat) (if (∀ m ∈ f.mapping, m.loc ≠ ((x % f.divisor.toNat : ℕ) : ℤ)) then
        x % f.divisor.toNat else (g % (width f.divisor : ℤ)).toNat)
  | none => t = 0 ∧ y = encodePx d.toNat (x / f.divisor.toNat) (x % f.divisor.toNat)

theorem decodeFrame_spec {r : Option Remap} {d : ℤ} {f : Frame} {o : List ℕ × List ℕ × List ℕ} (h : decodeFrame r d f = some o) :
    0 < f.divisor ∧ o.1.length = f.label.length ∧ o.2.1.length = f.label.length ∧
    List.Forall₂ (fun x yt => PixelOk r f d x yt.1 yt.2) f.label (o.1.zip o.2.1) ∧
    (f.coverage = none → o.2.2 = f.label.map fun _ => 1) ∧ (∀ c, f.coverage = some c → o.2.2 = c) := by
  unfold decodeFrame decode at h
  by_cases hd : f.divisor ≤ 0
  · simp [hd] at h
  rw [if_neg hd] at h
  simp only [Option.bind_eq_bind, Option.bind_some] at h
  cases hm : maxOf ((f.label.map (· % f.divisor.toNat)).map Int.ofNat) with
  | none =>
    exfalso
    rw [hm] at h
    cases r with
    | none => simp at h
    | some r =>
      simp only [Option.bind_none] at h
      cases hmm : List.mapM (fun i => remapPx r f.seq (width f.divisor) i f.mapping (i, 0)) (f.label.map (· % f.divisor.toNat)) <;>
        simp [hmm] at h
  | some top =>
    have htop : ∀ x ∈ f.label, ((x % f.divisor.toNat : ℕ) : ℤ) ≤ top := by
      intro x hx
      exact (maxOf_spec hm).2 _ (List.mem_map.2 ⟨_, List.mem_map.2 ⟨x, hx, rfl⟩, rfl⟩)
    rw [hm] at h
    simp only [Option.bind_some] at h
    have hcov : ∀ c' : List ℕ, c' = f.coverage.getD ((f.label.map (· % f.divisor.toNat)).map fun _ => 1) →
        (f.coverage = none → c' = f.label.map fun _ => 1) ∧ (∀ c, f.coverage = some c → c' = c) := by
      rintro _ rfl
      refine ⟨fun e => by rw [e, Option.getD_none, List.map_map]; rfl, fun c e => by rw [e, Option.getD_some]⟩
    cases r with
    | none =>
      simp only [Option.bind_some] at h
      split at h
      · simp at h
      next ht =>
        simp only [Option.pure_def, Option.some.injEq] at h
        subst h
        refine ⟨by omega, by simp [encode], by simp, ?_, hcov _ rfl⟩
        dsimp only [encode]
        rw [List.map_map, List.map_map, List.map_map, List.map_map, List.zipWith_map_left, List.zipWith_map_right, List.zipWith_self, List.zip_map',
          List.forall₂_map_right_iff, List.forall₂_same]
        intro x hx
        have := htop x hx
        exact ⟨by push_cast at this; omega, rfl, rfl⟩
    | some r =>
      simp only at h
      cases hmm : List.mapM (fun i => remapPx r f.seq (width f.divisor) i f.mapping (i, 0)) (f.label.map (· % f.divisor.toNat)) with
      | none => simp [hmm] at h
      | some new =>
        rw [hmm, Option.bind_some] at h
        split at h
        · simp at h
        next ht =>
          simp only [Option.pure_def, Option.some.injEq] at h
          subst h
          have hf := mapM_forall₂ hmm
          rw [List.forall₂_map_left_iff] at hf
          have hl := hf.length_eq
          refine ⟨by omega, by simp [encode, hl], by simp [hl], ?_, hcov _ rfl⟩
          dsimp only
          clear hmm hm hcov hl
          generalize hL : f.label = L at hf htop
          clear hL
          induction hf with
          | nil => exact List.Forall₂.nil
          | @cons x n L new h1 hf ih =>
            unfold encode
            simp only [List.map_cons, List.zipWith_cons_cons, List.zip_cons_cons]
            refine List.Forall₂.cons ?_ (ih fun y hy => htop y (by simp [hy]))
            have := htop x (by simp)
            refine ⟨by push_cast at this; omega, ?_⟩
            rcases remapPx_spec _ _ _ _ _ _ _ h1 with ⟨m, g, ha, hg, e⟩ | ⟨ha, e⟩
            · refine ⟨g, Or.inl ⟨m, ha, hg, by rw [e]⟩, ?_⟩
              rw [if_neg]
              · simp only [e]
              · intro hall
                obtain ⟨a, b, e', hloc, _⟩ := ha
                exact hall m (by rw [e']; simp) hloc
            · refine ⟨_, Or.inr ⟨ha, rfl, by rw [e]⟩, ?_⟩
              rw [if_pos ha]
              simp only [e]

/-! ### C40 -/

theorem decodeMulti_parts {frames : List Frame} {global sequential : Bool} {new : Option ℤ}
    {out : List (List ℕ × List ℕ × List ℕ)} {d : ℤ} (h : decodeMulti frames global sequential new = some (out, d)) :
    ∃ r, remapIf frames global sequential = some r ∧ outDivisor frames r new = some d ∧
      List.Forall₂ (fun f o => decodeFrame r d f = some o) frames out := by
  unfold decodeMulti at h
  simp only [Option.bind_eq_bind] at h
  cases hr : remapIf frames global sequential with
  | none => simp [hr] at h
  | some r =>
    rw [hr, Option.bind_some] at h
    cases hd : outDivisor frames r new with
    | none => simp [hd] at h
    | some d' =>
      rw [hd, Option.bind_some] at h
      cases hm : frames.mapM (decodeFrame r d') with
      | none => simp [hm] at h
      | some o =>
        simp only [hm, Option.bind_some, Option.pure_def, Option.some.injEq, Prod.mk.injEq] at h
        obtain ⟨rfl, rfl⟩ := h
        exact ⟨r, rfl, hd, mapM_forall₂ hm⟩

theorem px_decode {L y t : List ℕ} {D : ℕ} {d : ℤ} (hd : 0 < d) (hy : y.length = L.length) (ht : t.length = L.length)
    {P : ℕ → ℕ → ℕ → Prop}
    (h : List.Forall₂ (fun x yt => yt.1 / d.toNat = x / D ∧ P x (yt.1 % d.toNat) yt.2) L (y.zip t)) :
    ∃ insts, decode y d = some (L.map (· / D), insts) ∧ insts.length = L.length ∧
      ∀ (j x i s : ℕ), L[j]? = some x → insts[j]? = some i → t[j]? = some s → P x i s := by
  have e : y = (y.zip t).map Prod.fst := (List.map_fst_zip (by omega)).symm
  refine ⟨y.map (· % d.toNat), ?_, by simp [hy], ?_⟩
  · unfold decode
    rw [if_neg (by omega)]
    have : L.map (· / D) = y.map (· / d.toNat) := by
      rw [forall₂_map_eq (h.imp fun a b hab => hab.1.symm)]
      conv_rhs => rw [e, List.map_map]
      rfl
    rw [this]
  · intro j x i s hx hi hs
    rw [List.getElem?_map, Option.map_eq_some_iff] at hi
    obtain ⟨z, hz, rfl⟩ := hi
    exact (forall₂_getElem? h hx (b := (z, s)) (by rw [List.getElem?_zip_eq_some]; exact ⟨hz, hs⟩)).2

theorem pixels_pos {r : Option Remap} {f : Frame} {d : ℤ} {l : List (ℕ × ℕ)} (hne : f.label ≠ [])
    (hp : List.Forall₂ (fun x yt => PixelOk r f d x yt.1 yt.2) f.label l) : 0 < d := by
  obtain ⟨x, hx⟩ := List.exists_mem_of_ne_nil _ hne
  obtain ⟨y, _, hy⟩ := forall₂_exists_left hp hx
  have h1 := hy.1
  have h2 : (0 : ℤ) ≤ (x : ℤ) % (f.divisor.toNat : ℤ) := by exact_mod_cast Nat.zero_le (x % f.divisor.toNat)
  omega

/-- A frame without pixels is rejected. -/
theorem decodeFrame_empty {r : Option Remap} {d : ℤ} {f : Frame} (h : f.label = []) : decodeFrame r d f = none := by
  unfold decodeFrame decode
  rw [h]
  split
  · rfl
  · cases r <;> rfl

/-- C40: without remapping, every pixel keeps its semantic and instance labels, or the call fails. -/
theorem multi_plain {frames : List Frame} {sequential : Bool} {new : Option ℤ} {out : List (List ℕ × List ℕ × List ℕ)} {d : ℤ}
    (h : decodeMulti frames false sequential new = some (out, d))
    (h32 : ∀ f ∈ frames, ∀ x ∈ f.label, (x / f.divisor.toNat + 1) * d.toNat ≤ 2 ^ 32) :
    List.Forall₂ (fun f o => ∃ l, decode f.label f.divisor = some l ∧ decode o.1 d = some l) frames out := by
  obtain ⟨r, hr, _, hf⟩ := decodeMulti_parts h
  simp only [remapIf, Bool.false_eq_true, if_false, Option.some.injEq] at hr
  subst hr
  refine forall₂_imp_mem hf ?_
  intro f hfm o _ ho
  have hne : f.label ≠ [] := by
    intro e; rw [decodeFrame_empty e] at ho; simp at ho
  obtain ⟨hd, hl1, hl2, hp, _⟩ := decodeFrame_spec ho
  have hpos := pixels_pos hne hp
  have e : o.1 = (o.1.zip o.2.1).map Prod.fst := (List.map_fst_zip (by omega)).symm
  have key : List.Forall₂ (fun (x : ℕ) (yt : ℕ × ℕ) => yt.1 / d.toNat = x / f.divisor.toNat ∧ yt.1 % d.toNat = x % f.divisor.toNat)
      f.label (o.1.zip o.2.1) := by
    refine forall₂_imp_mem hp ?_
    rintro x hx yt _ ⟨h1, h2, h3⟩
    rw [h3]
    refine encodePx_parts ?_ (h32 f hfm x hx)
    have : ((x % f.divisor.toNat : ℕ) : ℤ) < d := by push_cast; exact h1
    omega
  refine ⟨(f.label.map (· / f.divisor.toNat), f.label.map (· % f.divisor.toNat)), ?_, ?_⟩
  · unfold decode; rw [if_neg (by omega)]
  · unfold decode
    rw [if_neg (by omega), forall₂_map_eq (key.imp fun a b hab => hab.1.symm), forall₂_map_eq (key.imp fun a b hab => hab.2.symm)]
    conv_lhs => rw [e]
    rw [List.map_map, List.map_map]
    rfl

/-- C40, with remapping: when every remapped id is below the divisor of the result and fits in an element of the instance labels, every
pixel keeps its semantic class, and its instance label is the remapped id of the last mapping for its instance, or its old instance
label if there is none.

Missing for the full claim: nothing checks the assumption on the ids (`multi_semantic_violated`, `multi_check_violated`,
`multi_width_violated`). -/
theorem multi_semantic_partial {frames : List Frame} {sequential : Bool} {new : Option ℤ} {out : List (List ℕ × List ℕ × List ℕ)}
    {d : ℤ} {r : Remap} (h : decodeMulti frames true sequential new = some (out, d)) (hr : remapGlobalIds frames sequential = some r)
    (hv : ∀ v ∈ r.map Prod.snd, 0 ≤ v ∧ v < d ∧ ∀ f ∈ frames, v < width f.divisor)
    (h32 : ∀ f ∈ frames, ∀ x ∈ f.label, (x / f.divisor.toNat + 1) * d.toNat ≤ 2 ^ 32) :
    List.Forall₂ (fun f o => ∃ insts, decode o.1 d = some (f.label.map (· / f.divisor.toNat), insts) ∧
      insts.length = f.label.length ∧ o.2.1.length = f.label.length ∧
      ∀ (j x i t : ℕ), f.label[j]? = some x → insts[j]? = some i → o.2.1[j]? = some t →
        NewId r f (x % f.divisor.toNat) i t) frames out := by
  obtain ⟨r', hr', _, hf⟩ := decodeMulti_parts h
  simp only [remapIf, if_true, hr, Option.map_some, Option.some.injEq] at hr'
  subst hr'
  refine forall₂_imp_mem hf ?_
  intro f hfm o _ ho
  have hne : f.label ≠ [] := by
    intro e; rw [decodeFrame_empty e] at ho; simp at ho
  obtain ⟨hd, hl1, hl2, hp, _⟩ := decodeFrame_spec ho
  have hpos := pixels_pos hne hp
  obtain ⟨insts, h1, h2, h3⟩ := px_decode (D := f.divisor.toNat) (P := fun x i t => NewId r f (x % f.divisor.toNat) i t)
    hpos hl1 hl2 (by
      refine forall₂_imp_mem hp ?_
      rintro x hx yt _ ⟨h1, g, hg, h3⟩
      have h1' : ((x % f.divisor.toNat : ℕ) : ℤ) < d := by push_cast; exact h1
      by_cases hall : ∀ m ∈ f.mapping, m.loc ≠ ((x % f.divisor.toNat : ℕ) : ℤ)
      · rw [if_pos hall] at h3
        obtain ⟨p1, p2⟩ := encodePx_parts (d := d.toNat) (s := x / f.divisor.toNat) (i := x % f.divisor.toNat)
          (by omega) (h32 f hfm x hx)
        rw [h3]
        refine ⟨p1, ?_⟩
        rw [p2]
        rcases hg with ⟨m, ⟨a, b, e, hm, _⟩, _⟩ | ⟨_, rfl, ht⟩
        · exact absurd hm (hall m (by rw [e]; simp))
        · exact Or.inr ⟨hall, rfl, ht⟩
      · rw [if_neg hall] at h3
        rcases hg with ⟨m, ha, hlk, ht⟩ | ⟨hno, _⟩
        · obtain ⟨v1, v2, v3⟩ := hv g (List.mem_map.2 ⟨_, mem_of_lookup hlk, rfl⟩)
          have e : g % (width f.divisor : ℤ) = g := Int.emod_eq_of_lt v1 (v3 f hfm)
          rw [e] at h3
          obtain ⟨p1, p2⟩ := encodePx_parts (d := d.toNat) (s := x / f.divisor.toNat) (i := g.toNat)
            (by omega) (h32 f hfm x hx)
          rw [h3]
          refine ⟨p1, ?_⟩
          rw [p2]
          exact Or.inl ⟨m, ha, by rw [hlk]; congr 1; omega, ht⟩
        · exact absurd hno hall)
  exact ⟨insts, h1, h2, hl2, h3⟩

/-- C40: the divisor of the result.  A divisor that was asked for is used; otherwise it is the larger one of the divisor of the first
frame and the largest id, so it exceeds every id exactly if the divisor of the first frame does. -/
theorem multi_divisor {frames : List Frame} {sequential : Bool} {new : Option ℤ} {out : List (List ℕ × List ℕ × List ℕ)}
    {d : ℤ} {r : Remap} (h : decodeMulti frames true sequential new = some (out, d)) (hr : remapGlobalIds frames sequential = some r) :
    (∀ n, new = some n → d = n) ∧ (new = none → ∃ f, frames.head? = some f ∧ (f.divisor ≤ d ∧ ∀ v ∈ r.map Prod.snd, v ≤ d) ∧
      (d = f.divisor ∨ d ∈ r.map Prod.snd) ∧ ((∀ v ∈ r.map Prod.snd, v < d) ↔ ∀ v ∈ r.map Prod.snd, v < f.divisor)) := by
  obtain ⟨r', hr', hd, _⟩ := decodeMulti_parts h
  simp only [remapIf, if_true, hr, Option.map_some, Option.some.injEq] at hr'
  subst hr'
  constructor
  · rintro n rfl
    simp only [outDivisor, Option.some.injEq] at hd
    exact hd.symm
  · rintro rfl
    simp only [outDivisor, Option.bind_eq_bind] at hd
    cases hf : frames.head? with
    | none => simp [hf] at hd
    | some f =>
      rw [hf, Option.bind_some] at hd
      refine ⟨f, rfl, ?_⟩
      cases r with
      | nil =>
        simp only [Option.pure_def, Option.some.injEq] at hd
        subst hd
        simp
      | cons x r =>
        cases hm : maxOf ((x :: r).map Prod.snd) with
        | none => simp [maxOf] at hm
        | some m =>
          simp only [hm, Option.bind_some, Option.pure_def, Option.some.injEq] at hd
          obtain ⟨m1, m2⟩ := maxOf_spec hm
          subst hd
          refine ⟨⟨le_max_left _ _, fun v hv => (m2 v hv).trans (le_max_right _ _)⟩, ?_, ?_⟩
          · rcases max_choice f.divisor m with e | e
            · exact Or.inl e
            · exact Or.inr (by rw [e]; exact m1)
          · constructor
            · intro hall v hv
              have h1 := hall m m1
              have h2 := m2 v hv
              rcases lt_max_iff.1 h1 with h3 | h3 <;> omega
            · intro hall v hv
              exact (hall v hv).trans_le (le_max_left _ _)

/-- C40, without a new divisor, for positive ids: every pixel keeps its semantic class if the divisor of the first frame is above every
remapped id.  This is the case the data set is in. -/
theorem multi_default_partial {frames : List Frame} {sequential : Bool} {out : List (List ℕ × List ℕ × List ℕ)}
    {d : ℤ} {r : Remap} {f₀ : Frame} (h : decodeMulti frames true sequential none = some (out, d))
    (hr : remapGlobalIds frames sequential = some r) (h0 : frames.head? = some f₀)
    (hp : ∀ f ∈ frames, ∀ m ∈ f.mapping, 1 ≤ m.glob) (hv : ∀ v ∈ r.map Prod.snd, v < f₀.divisor ∧ v < 65536)
    (h32 : ∀ f ∈ frames, ∀ x ∈ f.label, (x / f.divisor.toNat + 1) * d.toNat ≤ 2 ^ 32) :
    List.Forall₂ (fun f o => ∃ insts, decode o.1 d = some (f.label.map (· / f.divisor.toNat), insts)) frames out := by
  obtain ⟨_, hd⟩ := multi_divisor h hr
  obtain ⟨f, hf, ⟨h1, _⟩, _⟩ := hd rfl
  obtain rfl : f = f₀ := by rw [hf] at h0; exact Option.some.inj h0
  refine (multi_semantic_partial h hr (fun v hv' => ⟨?_, ?_, ?_⟩) h32).imp fun f o ho => ?_
  · have := (remap_vals_nodup hr hp).2 v hv'; omega
  · have := (hv v hv').1; omega
  · intro f _
    have := (hv v hv').2
    unfold width u32
    split <;> omega
  · obtain ⟨insts, hi, _⟩ := ho
    exact ⟨insts, hi⟩

/-- C40: two mapped pixels of any two frames get the same instance label exactly if they show the same instance of the same sequence. -/
theorem multi_distinct_partial {frames : List Frame} {sequential : Bool} {r : Remap} (hr : remapGlobalIds frames sequential = some r)
    (hp : ∀ f ∈ frames, ∀ m ∈ f.mapping, 1 ≤ m.glob) {f f' : Frame} {i i' t t' : ℕ} {g : ℤ} (h : NewId r f i g t)
    (h' : NewId r f' i' g t') (hm : ∃ m ∈ f.mapping, m.loc = i) (hm' : ∃ m ∈ f'.mapping, m.loc = i') :
    ∃ m m', Applies f i m ∧ Applies f' i' m' ∧ f.seq = f'.seq ∧ m.glob = m'.glob := by
  rcases h with ⟨m, ha, hl, _⟩ | ⟨hno, _⟩
  · rcases h' with ⟨m', ha', hl', _⟩ | ⟨hno, _⟩
    · have := (remap_injective_partial hr hp hl hl').2 rfl
      simp only [Prod.mk.injEq] at this
      exact ⟨m, m', ha, ha', this.1, this.2⟩
    · obtain ⟨m', h1, h2⟩ := hm'
      exact absurd h2 (hno m' h1)
  · obtain ⟨m, h1, h2⟩ := hm
    exact absurd h2 (hno m h1)

/-- C40 does not hold: with a global id of 1000, the divisor of the result is 1000 and a pixel of class 3 becomes one of class 4. -/
theorem multi_semantic_violated :
    decodeMulti [⟨"one", 1000, [3001], [⟨1, 1000, true⟩], none, false⟩] true false none = some ([([4000], [1], [1])], 1000) ∧
    decode [3001] 1000 = some ([3], [1]) ∧ decode [4000] 1000 = some ([4], [0]) := by
  refine ⟨by decide, by decide, by decide⟩

/-- C40 does not hold: a divisor that is too small for the remapped ids is accepted, although the error for it is documented. -/
theorem multi_check_violated :
    decodeMulti [⟨"one", 1000, [3001], [⟨1, 50, true⟩], none, false⟩] true false (some 20) = some ([([110], [1], [1])], 20) ∧
    decode [110] 20 = some ([5], [10]) := by
  refine ⟨by decide, by decide⟩

/-- C40 does not hold: ids above 65535 lose their high bits, so two instances become one. -/
theorem multi_width_violated :
    decodeMulti [⟨"one", 1000, [3001, 3002], [⟨1, 65537, true⟩, ⟨2, 1, true⟩], none, false⟩] true false (some 70000) =
      some ([([210001, 210001], [1, 1], [1, 1])], 70000) := by
  decide

/-- C40 does not hold: an instance without a mapping keeps its label, which may be the id of another instance. -/
theorem multi_unmapped_violated :
    decodeMulti [⟨"one", 1000, [3001, 3002], [⟨1, 2, true⟩], none, false⟩] true false none =
      some ([([3002, 3002], [1, 0], [1, 1])], 1000) := by
  decide

/-- A case for the hypotheses: two frames of two sequences. -/
theorem multi_case :
    decodeMulti [⟨"one", 1000, [2001, 3002], [⟨1, 50, true⟩, ⟨2, 60, false⟩], none, false⟩,
      ⟨"two", 1000, [2001, 4002, 0], [⟨1, 50, true⟩, ⟨2, 60, false⟩], some [1, 2, 1], false⟩] true false none =
      some ([([2050, 3060], [1, 0], [1, 1]), ([2110, 4120, 0], [1, 0, 0], [1, 2, 1])], 1000) := by
  decide

/-! ### C41 -/

theorem remap_keys_nodup {frames : List Frame} {sequential : Bool} {r : Remap} (h : remapGlobalIds frames sequential = some r) :
    (r.map Prod.fst).Nodup := by
  rcases remap_parts h with ⟨h0, rfl⟩ | ⟨off, vals, _, rfl, hl, _⟩
  · simp
  · rw [List.map_fst_zip (le_of_eq hl.symm)]
    exact keys_nodup (globalIds_spec frames).1

theorem remapPx_isSome {r : Remap} {seq : String} {w i : ℕ} : ∀ (ms : List Mapping) (acc : ℕ × ℕ),
    (∀ m ∈ ms, ∃ g, r.lookup (seq, m.glob) = some g) → ∃ o, remapPx r seq w i ms acc = some o := by
  intro ms
  induction ms with
  | nil => intro acc _; exact ⟨acc, rfl⟩
  | cons m ms ih =>
    intro acc h
    obtain ⟨g, hg⟩ := h m (by simp)
    rw [remapPx]
    simp only [hg, Option.bind_eq_bind, Option.bind_some]
    exact ih _ fun m' hm' => h m' (by simp [hm'])

theorem decodeFrame_isSome {r : Remap} {d : ℤ} {f : Frame} (hd : 0 < f.divisor) (hne : f.label ≠ [])
    (hm : ∀ m ∈ f.mapping, ∃ g, r.lookup (f.seq, m.glob) = some g) (hle : f.divisor ≤ d) : ∃ o, decodeFrame (some r) d f = some o := by
  unfold decodeFrame decode
  rw [if_neg (by omega)]
  obtain ⟨new, hnew⟩ := mapM_isSome (f := fun i => remapPx r f.seq (width f.divisor) i f.mapping (i, 0))
    (l := f.label.map (· % f.divisor.toNat)) fun i _ => remapPx_isSome _ _ hm
  obtain ⟨top, htop⟩ := maxOf_isSome (l := (f.label.map (· % f.divisor.toNat)).map Int.ofNat) (by simpa using hne)
  have hlt : ¬ top ≥ d := by
    have h1 := (maxOf_spec htop).1
    rw [List.map_map] at h1
    obtain ⟨x, _, hx⟩ := List.mem_map.1 h1
    have : x % f.divisor.toNat < f.divisor.toNat := Nat.mod_lt _ (by omega)
    simp only [Function.comp, Int.ofNat_eq_natCast] at hx
    omega
  simp only [Option.bind_eq_bind, Option.bind_some, hnew, htop, if_neg hlt, Option.pure_def, Option.some.injEq, exists_eq']

/-- The parts of a saved label. -/
theorem save_parts {label : List ℕ} {divisor : ℤ} {seq : String} {new : ℕ} {f : Frame} (h : save label divisor seq new = some f) :
    0 < divisor ∧ label ≠ [] ∧ f.seq = seq ∧ (new : ℤ) ≤ f.divisor ∧ f.component = false ∧
    f.label = label.map (fun x => encodePx f.divisor.toNat (x / divisor.toNat)
      (rank ((label.map (· % divisor.toNat)).map Int.ofNat) ((x % divisor.toNat : ℕ) : ℤ)).toNat) ∧
    (∀ x ∈ label, rank ((label.map (· % divisor.toNat)).map Int.ofNat) ((x % divisor.toNat : ℕ) : ℤ) < f.divisor) ∧
    (∀ y ∈ f.label, y < 65535) ∧
    ∀ m, m ∈ f.mapping ↔ m.tracked = false ∧ m.glob ≠ 0 ∧ (∃ x ∈ label, m.glob = ((x % divisor.toNat : ℕ) : ℤ)) ∧
      m.loc = rank ((label.map (· % divisor.toNat)).map Int.ofNat) m.glob := by
  unfold save decode at h
  by_cases hd : divisor ≤ 0
  · simp [hd] at h
  rw [if_neg hd] at h
  simp only [Option.bind_eq_bind, Option.bind_some] at h
  generalize hI : (label.map (· % divisor.toNat)).map Int.ofNat = I at h ⊢
  cases hr : relabel I with
  | none => simp [hr] at h
  | some q =>
    obtain ⟨sq, inv⟩ := q
    obtain ⟨rfl, hnn, hinv, _⟩ := relabel_spec hr
    have hne : label ≠ [] := by
      rintro rfl
      simp only [List.map_nil] at hI
      subst hI
      simp [relabel] at hr
    rw [hr, Option.bind_some] at h
    cases ht : maxOf (I.map (rank I)) with
    | none => simp [ht] at h
    | some top =>
      simp only [ht, Option.bind_some] at h
      obtain ⟨t1, t2⟩ := maxOf_spec ht
      generalize hout : encode (label.map (· / divisor.toNat)) ((I.map (rank I)).map Int.toNat) (max new (top.toNat + 1)) = out at h
      cases hh : maxOf (out.map Int.ofNat) with
      | none => simp [hh] at h
      | some high =>
        rw [hh, Option.bind_some] at h
        split at h
        · simp at h
        next hlt =>
          simp only [Option.pure_def, Option.some.injEq] at h
          subst h
          have hmemI : ∀ b, b ∈ I ↔ ∃ x ∈ label, b = ((x % divisor.toNat : ℕ) : ℤ) := by
            intro b
            rw [← hI, List.map_map, List.mem_map]
            constructor
            · rintro ⟨x, hx, rfl⟩; exact ⟨x, hx, rfl⟩
            · rintro ⟨x, hx, rfl⟩; exact ⟨x, hx, rfl⟩
          refine ⟨by omega, hne, rfl, by dsimp only; omega, rfl, ?_, ?_, ?_, ?_⟩
          · dsimp only
            rw [← hout, Int.toNat_natCast]
            unfold encode
            conv_lhs => enter [3]; rw [← hI]
            rw [List.map_map, List.map_map, List.map_map, List.zipWith_map_left, List.zipWith_map_right, List.zipWith_self, hI]
            rfl
          · intro x hx
            dsimp only
            have h1 := t2 _ (List.mem_map.2 ⟨_, (hmemI _).2 ⟨x, hx, rfl⟩, rfl⟩)
            have : (top.toNat + 1 : ℕ) ≤ max new (top.toNat + 1) := le_max_right _ _
            omega
          · intro y hy
            have := (maxOf_spec hh).2 _ (List.mem_map.2 ⟨y, hy, rfl⟩)
            simp only [Int.ofNat_eq_natCast] at this
            omega
          · intro m
            dsimp only
            rw [List.mem_map]
            constructor
            · rintro ⟨⟨a, b⟩, hm, rfl⟩
              rw [List.mem_filter, hinv] at hm
              obtain ⟨⟨hb, rfl⟩, hz⟩ := hm
              simp only [decide_eq_true_eq, not_or] at hz
              exact ⟨rfl, hz.1, (hmemI b).1 hb, rfl⟩
            · rintro ⟨h1, h2, h3, h4⟩
              refine ⟨(m.loc, m.glob), ?_, ?_⟩
              · rw [List.mem_filter, hinv]
                have hb := (hmemI m.glob).2 h3
                refine ⟨⟨hb, h4⟩, ?_⟩
                have := rank_pos hb (by have := hnn _ hb; omega)
                simp only [decide_eq_true_eq, not_or]
                exact ⟨h2, by omega⟩
              · cases m
                simp only at h1
                rw [h1]

/-- C41: what is stored fits in 16 bits, and the local ids are 0, 1, 2, … up to the number of instances. -/
theorem save_fits {label : List ℕ} {divisor : ℤ} {seq : String} {new : ℕ} {f : Frame} (h : save label divisor seq new = some f) :
    0 < f.divisor ∧ f.label.length = label.length ∧ (∀ y ∈ f.label, y < 2 ^ 16) ∧
    ∀ m ∈ f.mapping, 0 < m.loc ∧ m.loc < f.divisor ∧ 0 < m.glob ∧ m.glob < divisor := by
  obtain ⟨hd, hne, hs, hnew, hc, hl, hlt, hfit, hm⟩ := save_parts h
  obtain ⟨x, hx⟩ := List.exists_mem_of_ne_nil _ hne
  have h0 := hlt x hx
  have h1 := rank_nonneg (l := (label.map (· % divisor.toNat)).map Int.ofNat) (x := ((x % divisor.toNat : ℕ) : ℤ))
  refine ⟨by omega, by rw [hl]; simp, fun y hy => by have := hfit y hy; omega, fun m hmm => ?_⟩
  obtain ⟨_, h2, ⟨y, hy, e⟩, h3⟩ := (hm m).1 hmm
  have h4 : y % divisor.toNat < divisor.toNat := Nat.mod_lt _ (by omega)
  have h5 := rank_pos (l := (label.map (· % divisor.toNat)).map Int.ofNat) (x := m.glob)
    (by rw [e, List.map_map]; exact List.mem_map.2 ⟨y, hy, rfl⟩) (by omega)
  have h6 := hlt y hy
  rw [← e] at h6
  exact ⟨by omega, by omega, by omega, by omega⟩

/-- C41: decoding a saved label gives its semantic and instance labels back when every instance label is below the divisor that was
stored and the labels with that divisor fit in 32 bits.

Missing for the full claim: an instance label at or above the stored divisor (1000 unless there are more instances) changes the semantic
class (`save_decode_violated`), and semantic classes beyond 32 bits pass the check (`save_overflow_violated`). -/
theorem save_decode_partial {label : List ℕ} {divisor : ℤ} {seq : String} {new : ℕ} {f : Frame} (h : save label divisor seq new = some f)
    (hi : ∀ x ∈ label, ((x % divisor.toNat : ℕ) : ℤ) < f.divisor)
    (h32 : ∀ x ∈ label, (x / divisor.toNat + 1) * f.divisor.toNat ≤ 2 ^ 32) :
    ∃ o, decodeMulti [f] true false none = some ([o], f.divisor) ∧ decode o.1 f.divisor = decode label divisor := by
  obtain ⟨hd, hne, hs, hnew, hc, hl, hlt, hfit, hm⟩ := save_parts h
  obtain ⟨hfd, hll, _, hml⟩ := save_fits h
  have hmemI : ∀ x ∈ label, ((x % divisor.toNat : ℕ) : ℤ) ∈ (label.map (· % divisor.toNat)).map Int.ofNat := by
    intro x hx
    rw [List.map_map]
    exact List.mem_map.2 ⟨x, hx, rfl⟩
  have hnnI : ∀ y ∈ (label.map (· % divisor.toNat)).map Int.ofNat, 0 ≤ y := by
    intro y hy
    obtain ⟨x, _, rfl⟩ := List.mem_map.1 hy
    exact Int.natCast_nonneg x
  generalize (label.map (· % divisor.toNat)).map Int.ofNat = I at *
  obtain ⟨r, hr⟩ := remap_defined (frames := [f]) false
    (by intro g hg m hm'; simp only [List.mem_singleton] at hg; subst hg; have := hml m hm'; omega)
    (by intro g hg hgc; simp only [List.mem_singleton] at hg; subst hg; rw [hc] at hgc; simp at hgc)
  have hsingle : ∀ {k : String × ℤ} {v : ℤ}, r.lookup k = some v → v = k.2 ∧ k.1 = f.seq := fun hk =>
    remap_single hr (s := f.seq) (by intro g hg; simp only [List.mem_singleton] at hg; rw [hg]) hk
  have hlook : ∀ m ∈ f.mapping, ∃ g, r.lookup (f.seq, m.glob) = some g := fun m hm' =>
    (remap_domain hr f.seq m.glob).2 ⟨f, by simp, rfl, m, hm', rfl⟩
  have hvals : ∀ v ∈ r.map Prod.snd, ∃ x ∈ label, v = ((x % divisor.toNat : ℕ) : ℤ) := by
    intro v hv
    obtain ⟨⟨k, w⟩, hk, rfl⟩ := List.mem_map.1 hv
    have hk' := lookup_of_mem (remap_keys_nodup hr) hk
    obtain ⟨g, hg, _, m, hm', e⟩ := (remap_domain hr k.1 k.2).1 ⟨w, hk'⟩
    simp only [List.mem_singleton] at hg
    subst hg
    obtain ⟨_, _, ⟨x, hx, e'⟩, _⟩ := (hm m).1 hm'
    exact ⟨x, hx, by rw [(hsingle hk').1, ← e, e']⟩
  have hfne : f.label ≠ [] := by
    intro e
    rw [e] at hll
    exact hne (List.eq_nil_of_length_eq_zero hll.symm)
  obtain ⟨o, ho⟩ := decodeFrame_isSome (r := r) hfd hfne hlook le_rfl
  have hdiv : outDivisor [f] (some r) none = some f.divisor := by
    cases r with
    | nil => rfl
    | cons a r =>
      obtain ⟨m, hmax⟩ := maxOf_isSome (l := (a :: r).map Prod.snd) (by simp)
      obtain ⟨x, hx, e⟩ := hvals m (maxOf_spec hmax).1
      have := hi x hx
      simp only [outDivisor, List.head?_cons, Option.bind_eq_bind, Option.bind_some, hmax, Option.pure_def, Option.some.injEq]
      omega
  have hdec : decodeMulti [f] true false none = some ([o], f.divisor) := by
    simp only [decodeMulti, remapIf, if_true, hr, Option.map_some, Option.bind_eq_bind, Option.bind_some, hdiv, List.mapM_cons, ho,
      List.mapM_nil, Option.pure_def]
  refine ⟨o, hdec, ?_⟩
  -- a pixel of the saved label
  have hpx : ∀ x ∈ label, encodePx f.divisor.toNat (x / divisor.toNat) (rank I ((x % divisor.toNat : ℕ) : ℤ)).toNat / f.divisor.toNat =
      x / divisor.toNat ∧ encodePx f.divisor.toNat (x / divisor.toNat) (rank I ((x % divisor.toNat : ℕ) : ℤ)).toNat % f.divisor.toNat =
      (rank I ((x % divisor.toNat : ℕ) : ℤ)).toNat := by
    intro x hx
    refine encodePx_parts ?_ (h32 x hx)
    have := hlt x hx
    omega
  obtain ⟨x₀, hx₀⟩ := List.exists_mem_of_ne_nil _ hne
  have hbig : f.divisor.toNat ≤ 2 ^ 32 := (Nat.le_mul_of_pos_left _ (Nat.succ_pos _)).trans (h32 x₀ hx₀)
  have hsem := multi_semantic_partial hdec hr (fun v hv => by
      obtain ⟨x, hx, rfl⟩ := hvals v hv
      have := hi x hx
      refine ⟨by omega, this, fun g hg => ?_⟩
      simp only [List.mem_singleton] at hg
      subst hg
      unfold width u32
      split
      · push_cast at this ⊢; omega
      · have : ((x % divisor.toNat : ℕ) : ℤ) < ((2 ^ 32 : ℕ) : ℤ) := by omega
        exact this)
    (by
      intro g hg y hy
      simp only [List.mem_singleton] at hg
      subst hg
      rw [hl] at hy
      obtain ⟨x, hx, rfl⟩ := List.mem_map.1 hy
      rw [(hpx x hx).1]
      exact h32 x hx)
  obtain ⟨insts, h1, h2, h3, h4⟩ : ∃ insts, decode o.1 f.divisor = some (f.label.map (· / f.divisor.toNat), insts) ∧
      insts.length = f.label.length ∧ o.2.1.length = f.label.length ∧
      ∀ (j x i t : ℕ), f.label[j]? = some x → insts[j]? = some i → o.2.1[j]? = some t →
        NewId r f (x % f.divisor.toNat) i t := by
    cases hsem with
    | cons h _ => exact h
  rw [h1]
  unfold decode
  rw [if_neg (by omega)]
  have e1 : f.label.map (· / f.divisor.toNat) = label.map (· / divisor.toNat) := by
    rw [hl, List.map_map]
    apply List.map_congr_left
    intro x hx
    exact (hpx x hx).1
  have e2 : insts = label.map (· % divisor.toNat) := by
    apply List.ext_getElem?
    intro j
    rcases Nat.lt_or_ge j label.length with hj | hj
    · have hx : label[j]? = some label[j] := List.getElem?_eq_getElem hj
      generalize label[j] = x at hx
      have hxm : x ∈ label := List.mem_of_getElem? hx
      have hy : f.label[j]? = some (encodePx f.divisor.toNat (x / divisor.toNat) (rank I ((x % divisor.toNat : ℕ) : ℤ)).toNat) := by
        rw [hl, List.getElem?_map, hx]; rfl
      have hij : j < insts.length := by omega
      have htj : j < o.2.1.length := by omega
      have hN := h4 j _ insts[j] o.2.1[j] hy (List.getElem?_eq_getElem hij) (List.getElem?_eq_getElem htj)
      rw [List.getElem?_eq_getElem hij, List.getElem?_map, hx, Option.map_some]
      congr 1
      rw [(hpx x hxm).2] at hN
      rcases hN with ⟨m, ⟨a, b, e, hloc, _⟩, hlk, _⟩ | ⟨hno, hg, _⟩
      · have hmm : m ∈ f.mapping := by rw [e]; simp
        obtain ⟨_, hz, ⟨y, hy', ey⟩, hrank⟩ := (hm m).1 hmm
        have hgI : m.glob ∈ I := by rw [ey]; exact hmemI y hy'
        have h5 := (hsingle hlk).1
        simp only at h5
        have h6 : m.glob = ((x % divisor.toNat : ℕ) : ℤ) := by
          apply rank_inj hgI (hmemI x hxm)
          rw [← hrank, hloc]
          have := rank_nonneg (l := I) (x := ((x % divisor.toNat : ℕ) : ℤ))
          omega
        rw [h6] at h5
        exact_mod_cast h5
      · by_cases hz : x % divisor.toNat = 0
        · rw [hz] at hg ⊢
          have : rank I ((0 : ℕ) : ℤ) = 0 := by
            have hI0 : (0 : ℤ) ∈ I := by have := hmemI x hxm; rw [hz] at this; exact_mod_cast this
            exact_mod_cast rank_zero hnnI hI0
          rw [this] at hg
          exact_mod_cast hg
        · exfalso
          have hzi : ((x % divisor.toNat : ℕ) : ℤ) ≠ 0 := by exact_mod_cast hz
          have hpos := rank_pos (hmemI x hxm) (by omega)
          refine hno ⟨rank I ((x % divisor.toNat : ℕ) : ℤ), ((x % divisor.toNat : ℕ) : ℤ), false⟩
            ((hm _).2 ⟨rfl, hzi, ⟨x, hxm, rfl⟩, rfl⟩) ?_
          simp only
          omega
    · rw [List.getElem?_eq_none (by omega), List.getElem?_eq_none (by simpa using hj)]
  rw [e1, e2]

/-- C41: a label is saved unless the divisor is not positive, the image is empty, or a stored label reaches 65535. -/
theorem save_defined {label : List ℕ} {divisor : ℤ} (seq : String) (new : ℕ) (hd : 0 < divisor) (hne : label ≠ [])
    (hs : ∀ x ∈ label, (x / divisor.toNat + 1) * max new (label.length + 1) ≤ 65535) :
    ∃ f, save label divisor seq new = some f := by
  have hlen : ((label.map (· % divisor.toNat)).map Int.ofNat).length = label.length := by simp
  have hnnI : ∀ y ∈ (label.map (· % divisor.toNat)).map Int.ofNat, 0 ≤ y := by
    intro y hy
    obtain ⟨x, _, rfl⟩ := List.mem_map.1 hy
    exact Int.natCast_nonneg x
  have hIne : (label.map (· % divisor.toNat)).map Int.ofNat ≠ [] := by simpa using hne
  unfold save decode
  rw [if_neg (by omega)]
  simp only [Option.bind_eq_bind, Option.bind_some]
  generalize (label.map (· % divisor.toNat)).map Int.ofNat = I at *
  obtain ⟨⟨sq, inv⟩, hr⟩ := relabel_isSome hIne hnnI
  obtain ⟨rfl, -, -, -⟩ := relabel_spec hr
  obtain ⟨top, ht⟩ := maxOf_isSome (l := I.map (rank I)) (by simpa using hIne)
  have hul : (unique I).length ≤ I.length := by
    unfold unique
    rw [List.length_insertionSort]
    exact (List.dedup_sublist I).length_le
  have hrank : ∀ y ∈ I, rank I y ≤ label.length := by
    intro y hy
    have := List.idxOf_lt_length_of_mem (unique_mem.2 hy)
    unfold rank base
    split <;> omega
  have htop : top ≤ label.length := by
    obtain ⟨y, hy, e⟩ := List.mem_map.1 (maxOf_spec ht).1
    rw [← e]
    exact hrank y hy
  have hD : max new (top.toNat + 1) ≤ max new (label.length + 1) := by omega
  simp only [hr, Option.bind_some, ht]
  have hone : (encode (label.map (· / divisor.toNat)) ((I.map (rank I)).map Int.toNat) (max new (top.toNat + 1))).map Int.ofNat ≠ [] := by
    intro e
    have := congrArg List.length e
    simp only [encode, List.length_map, List.length_zipWith, List.length_nil, hlen, Nat.min_self] at this
    exact hne (List.eq_nil_of_length_eq_zero this)
  obtain ⟨high, hh⟩ := maxOf_isSome hone
  have hhigh : ¬ high ≥ 65535 := by
    obtain ⟨y, hy, e⟩ := List.mem_map.1 (maxOf_spec hh).1
    unfold encode at hy
    obtain ⟨j, hj, hy⟩ := List.getElem_of_mem hy
    rw [List.getElem_zipWith, List.getElem_map, List.getElem_map, List.getElem_map] at hy
    rw [List.length_zipWith, List.length_map, List.length_map, List.length_map] at hj
    have hi : (rank I (I[j]'(by omega))).toNat ≤ top.toNat := by
      have := (maxOf_spec ht).2 _ (List.mem_map.2 ⟨_, List.getElem_mem (by omega : j < I.length), rfl⟩)
      omega
    have hx := hs _ (List.getElem_mem (by omega : j < label.length))
    generalize label[j]'(by omega) / divisor.toNat = sem at hx hy
    have h1 : (sem + 1) * max new (top.toNat + 1) ≤ (sem + 1) * max new (label.length + 1) := Nat.mul_le_mul_left _ hD
    have h2 : (rank I (I[j]'(by omega))).toNat < max new (top.toNat + 1) := by omega
    have h3 : y ≤ sem * max new (top.toNat + 1) + (rank I (I[j]'(by omega))).toNat := by
      rw [← hy]
      unfold encodePx
      refine (Nat.mod_le _ _).trans (Nat.add_le_add ?_ (Nat.mod_le _ _))
      exact Nat.mul_le_mul_right _ (Nat.mod_le _ _)
    have h4 : (sem + 1) * max new (top.toNat + 1) = sem * max new (top.toNat + 1) + max new (top.toNat + 1) := by ring
    simp only [Int.ofNat_eq_natCast] at e
    omega
  simp only [hh, Option.bind_some, if_neg hhigh]
  exact ⟨_, rfl⟩

/-- C41 does not hold: instance 1500 of class 3 comes back as no instance of class 4. -/
theorem save_decode_violated : ∃ f, save [7500] 2000 "one" 1000 = some f ∧ decode [7500] 2000 = some ([3], [1500]) ∧
    decodeMulti [f] true false none = some ([([6000], [0], [1])], 1500) ∧ decode [6000] 1500 = some ([4], [0]) := by
  refine ⟨⟨"one", 1000, [3001], [⟨1, 1500, false⟩], none, false⟩, by decide, by decide, by decide, by decide⟩

/-- C41 does not hold: a class that does not fit is stored as another one instead of being rejected. -/
theorem save_overflow_violated : save [4294968] 1 "one" 1000 = some ⟨"one", 1000, [704], [], none, false⟩ := by decide

/-- A case for the hypotheses: three instances of two classes and a pixel without an instance. -/
theorem save_case : ∃ f, save [3007, 3090, 5090, 5000] 1000 "one" 1000 = some f ∧ f.label = [3001, 3002, 5002, 5000] ∧
    f.mapping = [⟨1, 7, false⟩, ⟨2, 90, false⟩] ∧
    (∀ x ∈ [3007, 3090, 5090, 5000], ((x % 1000 : ℕ) : ℤ) < f.divisor) ∧
    ∀ x ∈ [3007, 3090, 5090, 5000], (x / 1000 + 1) * f.divisor.toNat ≤ 2 ^ 32 := by
  refine ⟨⟨"one", 1000, [3001, 3002, 5002, 5000], [⟨1, 7, false⟩, ⟨2, 90, false⟩], none, false⟩, by decide, rfl, rfl, by decide, by decide⟩

end Verif.Panoptic
