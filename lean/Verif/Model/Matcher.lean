import Verif.Model.Common
import Verif.Model.Hungarian

/-!
Model of `metrics/matcher.cc` and `metrics/matcher.h`.

`Frame` holds every member of class `Matcher` except the two caches; `Matcher` adds the caches.  The
functions that use IoU and affinity are written over an arbitrary monad `m` and the pair of primitives
`Prims m`; the program is their instance at `StateT (Matcher β) Option` with the caching primitives.
`failure` is a failed `CHECK`, a null object vector or an out-of-range vector access.

Simplifications: floats are rationals; boxes are an arbitrary type `β` with the IoU function
`defaultIou` (`ComputeIoU` for the configured box type); object indices are natural numbers; both
output pointers of `Match` are non-null.
-/

namespace Verif.Matcher

open Verif.Hungarian (hungarian)

/-- The parts of `Object` (protos/metrics.proto) that the matcher reads. Type `0` is `TYPE_UNKNOWN`. -/
structure Obj (β : Type) where
  type : Nat
  box : β
  score : ℚ

/-- Members of `class Matcher` other than the caches, matcher.h:233-252. -/
structure Frame (β : Type) where
  thresholds : List ℚ
  defaultIou : β → β → ℚ
  customIou : Option (β → β → ℚ) := none
  customAff : Option (β → β → ℚ) := none
  /-- `custom_can_match_func_` and `custom_matching_weight_func_` are the lambdas of
  `Matcher::Create` with a LET configuration (matcher.cc:69-87); otherwise they are null. -/
  letFns : Bool := false
  preds : Option (List (Obj β)) := none
  gts : Option (List (Obj β)) := none
  predSubset : List Nat := []
  gtSubset : List Nat := []

/-- `class Matcher` with `iou_caches_` and `longitudinal_affinity_caches_`, matcher.h:254-264. -/
structure Matcher (β : Type) where
  frame : Frame β
  iouCache : List (List ℚ) := []
  affCache : List (List ℚ) := []

/-- `Matcher::SetPredictions`, matcher.h:101-105. -/
def Matcher.setPredictions {β : Type} (s : Matcher β) (l : List (Obj β)) : Matcher β :=
  { frame := { s.frame with preds := some l }, iouCache := [], affCache := [] }

/-- `Matcher::SetGroundTruths`, matcher.h:112-116. -/
def Matcher.setGroundTruths {β : Type} (s : Matcher β) (l : List (Obj β)) : Matcher β :=
  { frame := { s.frame with gts := some l }, iouCache := [], affCache := [] }

/-- `Matcher::SetPredictionSubset`, matcher.h:121-123. -/
def Matcher.setPredictionSubset {β : Type} (s : Matcher β) (l : List Nat) : Matcher β :=
  { s with frame := { s.frame with predSubset := l } }

/-- `Matcher::SetGroundTruthSubset`, matcher.h:128-130. -/
def Matcher.setGroundTruthSubset {β : Type} (s : Matcher β) (l : List Nat) : Matcher β :=
  { s with frame := { s.frame with gtSubset := l } }

/-- `Matcher::SetCustomIoUComputeFunc`, matcher.h:133-135: the caches are kept. -/
def Matcher.setCustomIou {β : Type} (s : Matcher β) (f : β → β → ℚ) : Matcher β :=
  { s with frame := { s.frame with customIou := some f } }

/-- `Matcher::SetCustomLongitudinalAffinityFunc`, matcher.h:139-143: the caches are kept. -/
def Matcher.setCustomAff {β : Type} (s : Matcher β) (f : β → β → ℚ) : Matcher β :=
  { s with frame := { s.frame with customAff := some f } }

/-- `predictions()[i]` / `ground_truths()[i]`, matcher.h:158-165: null check, then the element. -/
def fetch {β : Type} {m : Type → Type} [Monad m] [Alternative m] (l : Option (List (Obj β))) (i : Nat) :
    m (Obj β) :=
  match l with
  | none => failure
  | some l =>
    match l[i]? with
    | none => failure
    | some o => pure o

/-- The IoU of two objects as computed on a cache miss, matcher.cc:144-160. -/
def freshIou {β : Type} {m : Type → Type} [Monad m] [Alternative m] (F : Frame β) (p g : Obj β) : m ℚ :=
  let v : ℚ :=
    if p.type ≠ g.type then 0
    else match F.customIou with
      | none => F.defaultIou p.box g.box
      | some f => f p.box g.box
  if 0 ≤ v ∧ v ≤ 1 then pure v else failure

/-- The affinity of two objects as computed on a cache miss, matcher.cc:110-123. -/
def freshAff {β : Type} {m : Type → Type} [Monad m] [Alternative m] (f : β → β → ℚ) (p g : Obj β) : m ℚ :=
  if p.type ≠ g.type then pure 0
  else
    let v := f p.box g.box
    if 0 ≤ v ∧ v ≤ 1 then pure v else failure

/-- matcher.cc:99-102 and 135-138: allocate the cache on first use. -/
def allocate (cache : List (List ℚ)) (np ng : Nat) : List (List ℚ) :=
  if cache.isEmpty then List.replicate np (List.replicate ng (-1)) else cache

/-- Entry `[i][j]` of a cache. -/
def entry? (cache : List (List ℚ)) (i j : Nat) : Option ℚ := (cache[i]?).bind fun r => r[j]?

/-- Overwrite entry `[i][j]` of a cache. -/
def store (cache : List (List ℚ)) (i j : Nat) (v : ℚ) : List (List ℚ) :=
  cache.modify i fun r => r.set j v

/-- Number of objects, `0` if not set. -/
def size {β : Type} (l : Option (List (Obj β))) : Nat := (l.getD []).length

/-- `Matcher::IoU`, matcher.cc:131-165. -/
def iouCached {β : Type} (i j : Nat) : StateT (Matcher β) Option ℚ := do
  let s ← get
  let p ← fetch s.frame.preds i
  let g ← fetch s.frame.gts j
  let cache := allocate s.iouCache (size s.frame.preds) (size s.frame.gts)
  set { s with iouCache := cache }
  match entry? cache i j with
  | none => failure
  | some v =>
    if v < 0 then do
      let v' ← freshIou s.frame p g
      set { s with iouCache := store cache i j v' }
      return v'
    else return v

/-- `Matcher::LongitudinalAffinity`, matcher.cc:91-129. -/
def affCached {β : Type} (i j : Nat) : StateT (Matcher β) Option ℚ := do
  let s ← get
  let p ← fetch s.frame.preds i
  let g ← fetch s.frame.gts j
  match s.frame.customAff with
  | none => return 1
  | some f =>
    let cache := allocate s.affCache (size s.frame.preds) (size s.frame.gts)
    set { s with affCache := cache }
    match entry? cache i j with
    | none => failure
    | some v =>
      if v < 0 then do
        let v' ← freshAff f p g
        set { s with affCache := store cache i j v' }
        return v'
      else return v

/-- The two primitives the rest of the matcher uses. -/
structure Prims (m : Type → Type) where
  iou : Nat → Nat → m ℚ
  aff : Nat → Nat → m ℚ

/-- The primitives of the program. -/
def cachedPrims (β : Type) : Prims (StateT (Matcher β) Option) := ⟨iouCached, affCached⟩

section Generic
variable {β : Type} {m : Type → Type} [Monad m] [Alternative m]

/-- `iou_thresholds_[object_type]`. -/
def threshold (F : Frame β) (t : Nat) : m ℚ :=
  match F.thresholds[t]? with
  | none => failure
  | some v => pure v

/-- `Matcher::CanMatch`, matcher.cc:167-179, and the LET lambda matcher.cc:69-79. -/
def canMatch (P : Prims m) (F : Frame β) (i j : Nat) : m Bool := do
  let p ← fetch F.preds i
  if p.type = 0 then failure
  else if F.letFns then do
    let a ← P.aff i j
    if a = 0 then return false
    else do
      let v ← P.iou i j
      let t ← threshold F p.type
      return !decide (v < t)
  else do
    let v ← P.iou i j
    let t ← threshold F p.type
    return !decide (v < t)

/-- `Matcher::QuantizedWeight`, matcher.h:223-225, with `kMaxIoU = 1000 * 1000`. -/
def quantize (w : ℚ) : ℤ := roundHalfAway (w * 1000000)

/-- `Matcher::MatchingWeight`, matcher.cc:181-188, and the LET lambda matcher.cc:81-87. -/
def matchingWeight (P : Prims m) (F : Frame β) (i j : Nat) : m ℤ := do
  let v ← P.iou i j
  if F.letFns then do
    let a ← P.aff i j
    return quantize (v * a)
  else return quantize v

/-- One entry of the weight matrix, matcher.cc:218-221. -/
def edgeOf (P : Prims m) (F : Frame β) (i j : Nat) : m ℤ := do
  if ← canMatch P F i j then matchingWeight P F i j else pure 0

/-- The flat array `edge`, zero where no pair was written, matcher.cc:210-223. -/
def flatEdge (n : Nat) (rows : List (List ℤ)) (k : Nat) : ℤ :=
  (rows.getD (k / n) []).getD (k % n) 0

/-- One round of the loop that reads the assignment back, matcher.cc:227-249: prediction `p` at
position `i` was assigned the column `j`. -/
def readBack (P : Prims m) (F : Frame β) (n : Nat) (gs : List Nat)
    (r : List (Option Nat) × List (Option Nat)) (x : (Nat × Nat) × Nat) :
    m (List (Option Nat) × List (Option Nat)) :=
  let p := x.1.1
  let j := x.1.2
  let i := x.2
  if j < n then
    match gs[j]? with
    | none => return (r.1.set i none, r.2)
    | some g => do
      let c ← canMatch P F p g
      return (r.1.set i (if c then some j else none), r.2.set j (if c then some i else none))
  else failure

/-- `HungarianMatcher::Match`, matcher.cc:192-250. -/
def hungarianMatch (P : Prims m) (F : Frame β) : m (List (Option Nat) × List (Option Nat)) := do
  let ps := F.predSubset
  let gs := F.gtSubset
  let r := (List.replicate ps.length none, List.replicate gs.length none)
  if ps.length = 0 ∨ gs.length = 0 then return r
  else do
    let n := max ps.length gs.length
    let rows ← ps.mapM fun p => gs.mapM fun g => edgeOf P F p g
    match hungarian (n + 1) n (flatEdge n rows) with
    | none => failure
    | some (perm, _, _) => (ps.zip perm).zipIdx.foldlM (readBack P F n gs) r

/-- Inner loop of `ScoreFirstMatcher::Match`, matcher.cc:272-289, from ground truth position `j` on:
`best` is the pair (`best_gt_match`, `best_gt_match_weight`).  Note that `MatchingWeight` is called
with the subset positions `i`, `j` and not with the object indices. -/
def bestGt (P : Prims m) (F : Frame β) (p i : Nat) (gm : List (Option Nat)) :
    List (Nat × Nat) → Option Nat × ℤ → m (Option Nat × ℤ)
  | [], best => pure best
  | (g, j) :: rest, best =>
    match gm[j]? with
    | none => failure
    | some (some _) => bestGt P F p i gm rest best
    | some none => do
      if ← canMatch P F p g then do
        let w ← matchingWeight P F i j
        if best.2 < w then do
          let w' ← matchingWeight P F i j
          bestGt P F p i gm rest (some j, w')
        else bestGt P F p i gm rest best
      else bestGt P F p i gm rest best

/-- One round of the outer loop of `ScoreFirstMatcher::Match`, matcher.cc:271-294. -/
def scoreStep (P : Prims m) (F : Frame β) (r : List (Option Nat) × List (Option Nat)) (i : Nat) :
    m (List (Option Nat) × List (Option Nat)) :=
  match F.predSubset[i]? with
  | none => failure
  | some p => do
    let b ← bestGt P F p i r.2 F.gtSubset.zipIdx (none, -1)
    match b.1 with
    | none => return r
    | some j => return (r.1.set i (some j), r.2.set j (some i))

/-- `std::vector::resize(n, -1)`. -/
def resize (l : List (Option Nat)) (n : Nat) : List (Option Nat) :=
  l.take n ++ List.replicate (n - l.length) none

/-- `ScoreFirstMatcher::Match`, matcher.cc:252-295.  `order` is the result of `std::sort`, `r0` the
vectors passed in by the caller (they are resized, not cleared). -/
def scoreFirstMatch (P : Prims m) (F : Frame β) (order : List Nat)
    (r0 : List (Option Nat) × List (Option Nat)) : m (List (Option Nat) × List (Option Nat)) :=
  order.foldlM (scoreStep P F) (resize r0.1 F.predSubset.length, resize r0.2 F.gtSubset.length)

end Generic

/-- What `std::sort` guarantees about `order` (matcher.cc:262-269): a permutation of the positions in
which scores never increase. Equal scores may come in any order. -/
def ScoreOrder {β : Type} (F : Frame β) (order : List Nat) : Prop :=
  order.Perm (List.range F.predSubset.length) ∧
    order.Pairwise fun a b =>
      ∀ pa pb : Nat, F.predSubset[a]? = some pa → F.predSubset[b]? = some pb →
        ∀ oa ob, (F.preds.getD [])[pa]? = some oa → (F.preds.getD [])[pb]? = some ob → ob.score ≤ oa.score

/-- Calls a client can make on a matcher object (matcher.h:101-230). -/
inductive Op (β : Type) where
  | setPredictions (l : List (Obj β))
  | setGroundTruths (l : List (Obj β))
  | setPredictionSubset (l : List Nat)
  | setGroundTruthSubset (l : List Nat)
  | iou (i j : Nat)
  | affinity (i j : Nat)
  | canMatch (i j : Nat)
  | matchingWeight (i j : Nat)
  | hungarianMatch
  | scoreFirstMatch (order : List Nat) (r0 : List (Option Nat) × List (Option Nat))

/-- What a call returns. -/
inductive Out where
  | unit
  | number (q : ℚ)
  | bool (b : Bool)
  | weight (w : ℤ)
  | pairs (r : List (Option Nat) × List (Option Nat))
  deriving DecidableEq

/-- One call; `none` means that the process was aborted by a `CHECK`. -/
def step {β : Type} : Op β → StateT (Matcher β) Option Out
  | .setPredictions l => do modify (·.setPredictions l); return .unit
  | .setGroundTruths l => do modify (·.setGroundTruths l); return .unit
  | .setPredictionSubset l => do modify (·.setPredictionSubset l); return .unit
  | .setGroundTruthSubset l => do modify (·.setGroundTruthSubset l); return .unit
  | .iou i j => do return .number (← iouCached i j)
  | .affinity i j => do return .number (← affCached i j)
  | .canMatch i j => do return .bool (← canMatch (cachedPrims β) (← get).frame i j)
  | .matchingWeight i j => do return .weight (← matchingWeight (cachedPrims β) (← get).frame i j)
  | .hungarianMatch => do return .pairs (← hungarianMatch (cachedPrims β) (← get).frame)
  | .scoreFirstMatch order r0 => do
    return .pairs (← scoreFirstMatch (cachedPrims β) (← get).frame order r0)

/-- A history of calls. -/
def run {β : Type} (ops : List (Op β)) : StateT (Matcher β) Option (List Out) := ops.mapM step

end Verif.Matcher
