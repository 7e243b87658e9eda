import Mathlib.Analysis.SpecialFunctions.Pow.Real
import Mathlib.Analysis.SpecialFunctions.Complex.Arg

/-!
Model of utils/occupancy_flow_vis.py.  Numbers are real.  Tensors of shape [batch, height, width, 1] are functions of batch, row
and column, so all tensors of one call have one size; images have a last index for the three channels.
-/

namespace Verif.FlowVis

/-- A tensor of shape [batch, height, width, 1]. -/
abbrev Grid (B H W : ℕ) := Fin B → Fin H → Fin W → ℝ
/-- A tensor of shape [batch, height, width, 3]. -/
abbrev Img (B H W : ℕ) := Fin B → Fin H → Fin W → Fin 3 → ℝ

variable {B H W : ℕ}

/-- `tf.keras.backend.epsilon()`. -/
noncomputable def eps : ℝ := 1 / 10 ^ 7

/-- `_alpha_blend`, occupancy_flow_vis.py:111-144, for one channel of one pixel: color and alpha. -/
noncomputable def blend (fg bg fgA bgA : ℝ) : ℝ × ℝ :=
  let outA := fgA + bgA * (1 - fgA)
  ((fg * fgA + bg * bgA * (1 - fgA)) / (outA + eps), outA)

/-- `_alpha_blend` of images; the alpha of the foreground has one channel or three equal ones. -/
noncomputable def blendImg (fg bg : Img B H W) (fgA : Grid B H W) (bgA : Img B H W) : Img B H W × Img B H W :=
  (fun b y x c => (blend (fg b y x c) (bg b y x c) (fgA b y x) (bgA b y x c)).1,
   fun b y x c => (blend (fg b y x c) (bg b y x c) (fgA b y x) (bgA b y x c)).2)

/-- `tf.concat([r, g, b], axis=-1)`. -/
def rgb (r g b : Grid B H W) : Img B H W := fun i y x => ![r i y x, g i y x, b i y x]

/-- `zeros if grid is None else grid`, then `tf.math.pow(grid, 1 / gamma)`, occupancy_flow_vis.py:41-49. -/
noncomputable def layer (gamma : ℝ) (g : Option (Grid B H W)) : Grid B H W :=
  fun b y x => (match g with | none => 0 | some g => g b y x) ^ (1 / gamma)

/-- `occupancy_rgb_image`, occupancy_flow_vis.py:24-68.  The first background has no alpha, so its color is its alpha. -/
noncomputable def occupancyImage (vehicles pedestrians cyclists : Option (Grid B H W)) (road : Grid B H W) (gamma : ℝ) : Img B H W :=
  let zeros : Grid B H W := fun _ _ _ => 0
  let ones : Grid B H W := fun _ _ _ => 1
  let veh := layer gamma vehicles
  let ped := layer gamma pedestrians
  let cyc := layer gamma cyclists
  let bg := rgb ones ones ones
  let s1 := blendImg (rgb zeros zeros zeros) bg road bg
  let s2 := blendImg (rgb veh zeros zeros) s1.1 veh s1.2
  let s3 := blendImg (rgb zeros (fun b y x => ped b y x * 0.67) zeros) s2.1 ped s2.2
  (blendImg (rgb zeros zeros cyc) s3.1 cyc s3.2).1

/-- `_add_grayscale_layer`, occupancy_flow_vis.py:98-108. -/
noncomputable def addGray (fgA : Grid B H W) (scene : Img B H W) : Img B H W :=
  (blendImg (fun _ _ _ _ => 0) scene fgA (fun _ _ _ _ => 1)).1

/-- A flow field, [batch, height, width, 2]: dx and dy of every pixel. -/
abbrev Flow (B H W : ℕ) := Fin B → Fin H → Fin W → ℝ × ℝ

/-- The length of a vector, occupancy_flow_vis.py:194. -/
noncomputable def magnitude (v : ℝ × ℝ) : ℝ := Real.sqrt (v.1 ^ 2 + v.2 ^ 2)

/-- The magnitude at which colors saturate, per element of the batch, occupancy_flow_vis.py:195-201. -/
noncomputable def limit (flow : Flow B H W) (saturate : ℝ) (b : Fin B) : ℝ :=
  if saturate < 0 then ⨆ p : Fin H × Fin W, magnitude (flow b p.1 p.2) else saturate

/-- `tf.math.mod(a, 2 * math.pi)`, which has the sign of the divisor. -/
noncomputable def wrap (a : ℝ) : ℝ := a - 2 * Real.pi * ⌊a / (2 * Real.pi)⌋

/-- Hue, occupancy_flow_vis.py:204; `atan2(0, 0)` is 0. -/
noncomputable def hue (v : ℝ × ℝ) : ℝ := wrap (Complex.arg ⟨v.1, v.2⟩) / (2 * Real.pi)

/-- `tf.math.divide_no_nan`. -/
noncomputable def divideNoNan (a b : ℝ) : ℝ := if b = 0 then 0 else a / b

/-- `_optical_flow_to_hsv`, occupancy_flow_vis.py:148-215. -/
noncomputable def toHsv (flow : Flow B H W) (saturate : ℝ) : Img B H W :=
  fun b y x => ![hue (flow b y x), min (divideNoNan (magnitude (flow b y x)) (limit flow saturate b)) 1, 1]

/-- Clipping to [0, 1]. -/
noncomputable def clip (x : ℝ) : ℝ := max 0 (min 1 x)

/-- `tf.image.hsv_to_rgb` for one pixel, as its kernel computes it. -/
noncomputable def hsvToRgb (p : Fin 3 → ℝ) : Fin 3 → ℝ :=
  let dh := p 0 * 6
  let dr := clip (|dh - 3| - 1)
  let dg := clip (2 - |dh - 2|)
  let db := clip (2 - |dh - 4|)
  ![((dr - 1) * p 1 + 1) * p 2, ((dg - 1) * p 1 + 1) * p 2, ((db - 1) * p 1 + 1) * p 2]

/-- `_optical_flow_to_rgb`, occupancy_flow_vis.py:218-226. -/
noncomputable def toRgb (flow : Flow B H W) (saturate : ℝ) : Img B H W := fun b y x => hsvToRgb (toHsv flow saturate b y x)

/-- `flow_rgb_image`, occupancy_flow_vis.py:71-95; `tf.roll` of two elements swaps them. -/
noncomputable def flowImage (flow : Flow B H W) (road trails : Grid B H W) : Img B H W :=
  let flow : Flow B H W := fun b y x => ((flow b y x).2, (flow b y x).1)
  let image := toRgb flow (-1)
  let image := addGray road image
  addGray (fun b y x => trails b y x * 0.2) image

end Verif.FlowVis
