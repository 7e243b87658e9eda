import Verif.Props.Assets

/-! Exactly which camera rays can be encoded (C165). -/

namespace Verif.Assets

open Tensor

variable {Key K : Type} [Field K] [LinearOrder K] [IsStrictOrderedRing K] [FloorRing K] {m tile : Nat}

/-- **Exactly which rays can be encoded** (C165): whatever their values, those of images to which at most a reflection has to be added to fill
the tiles. -/
theorem encode_iff (c : Pca.Config K m (tile * tile * 6)) (hc : c.tile = tile) (hq : ∀ i, c.quantization i ≠ 0) (key : Key)
    {o d : Shaped K} {h w : Nat} (ho : Image o h w) (hd : Image d h w) :
    (encode c ⟨key, some o, some d⟩).isSome ↔ Fits tile h w := by
  constructor
  · intro he
    by_contra hf
    rw [encode_small c hc key ho hd hf] at he
    cases he
  · intro hf
    obtain ⟨t, h1, h2, h3, -⟩ := sample_spec ho hd
    have L : Tiling.Legal t h w 6 tile := ⟨h2, h3, hf.1, hf.2.1, hf.2.2, by omega⟩
    obtain ⟨tiles, t1, t2, t3, t4⟩ := Pca.codecExtract_spec L
    have hrows : ∃ rs, Pca.rows (tile * tile * 6) tiles = some rs := by
      unfold Pca.rows
      rw [t3]
      simp only [if_true]
      exact ⟨_, rfl⟩
    obtain ⟨rs, hrs⟩ := hrows
    have hv : ∃ vs, (rs.map (Pca.transform c.pca)).mapM (Pca.quantizeRow c.quantization) = some vs := by
      obtain ⟨vs, v, -⟩ := Detection.mapM_exists (Pca.quantizeRow c.quantization) (fun _ _ => True) (rs.map (Pca.transform c.pca)) (by
        intro a _
        refine ⟨_, if_neg ?_, trivial⟩
        rintro ⟨i, hi⟩
        exact hq i hi)
      exact ⟨vs, v⟩
    obtain ⟨vs, hvs⟩ := hv
    have he : Pca.encode c t = some ⟨(List.range 6).map (Pca.channelMean t h w), vs, t.shape⟩ := by
      unfold Pca.encode
      rw [hc]
      simp only [t1, hrs, hvs, Option.bind_eq_bind, Option.bind_some, Option.pure_def]
    obtain ⟨o1, -⟩ := tensor_of_image ho
    obtain ⟨d1, -⟩ := tensor_of_image hd
    rw [sample, o1, d1] at h1
    simp only [Option.bind_eq_bind, Option.bind_some] at h1
    simp only [encode, Option.bind_eq_bind, Option.bind_some, Option.pure_def, o1, d1, h1, he, Option.isSome_some]

/-- With tiles of 8 by 8 pixels, images of 5 by 5 pixels can be encoded and images of 12 by 4 pixels cannot. -/
theorem encode_case (c : Pca.Config ℚ m (8 * 8 * 6)) (hc : c.tile = 8) (hq : ∀ i, c.quantization i ≠ 0) :
    (encode c ⟨(), some ⟨List.replicate 75 0, [5, 5, 3]⟩, some ⟨List.replicate 75 1, [5, 5, 3]⟩⟩).isSome ∧
      ¬ (encode c ⟨(), some ⟨List.replicate 144 0, [12, 4, 3]⟩, some ⟨List.replicate 144 1, [12, 4, 3]⟩⟩).isSome := by
  constructor
  · rw [encode_iff c hc hq () (h := 5) (w := 5) ⟨rfl, by simp⟩ ⟨rfl, by simp⟩]
    exact ⟨by decide, by decide, by decide⟩
  · rw [encode_iff c hc hq () (h := 12) (w := 4) ⟨rfl, by simp⟩ ⟨rfl, by simp⟩]
    rintro ⟨-, -, h⟩
    revert h
    decide

end Verif.Assets
