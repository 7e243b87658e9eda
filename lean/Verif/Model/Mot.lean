import Mathlib.Data.Rat.Defs
import Mathlib.Algebra.Order.Ring.Rat
import Mathlib.Data.List.Perm.Basic

/-!
Model of `metrics/mot.cc`: multi object tracking evaluation.

* `flat_hash_map` is a list of key/value pairs with distinct keys.  Its iteration order is unspecified;
  `HashOrder` is an arbitrary rearrangement, a parameter of every function that iterates over a map.
* The matcher is abstracted to what `MOT` calls: `CanMatch`, `IoU` and the virtual `Match` (with the
  subsets set just before).  Props/Mot.lean instantiates it with the Hungarian matcher.
* `none` is a failed `CHECK`, `LOG(FATAL)` or an access out of range.
* `matching_cost` (double) is a rational, the counters (int32) are integers.
-/

namespace Verif.Mot

/-- An iteration order of hash containers: any rearrangement of the entries. -/
structure HashOrder where
  order : {α : Type} → List α → List α
  perm : ∀ {α : Type} (l : List α), (order l).Perm l

section Map
variable {κ α : Type} [DecidableEq κ]

/-- `flat_hash_map::find`. -/
def get? : List (κ × α) → κ → Option α
  | [], _ => none
  | (k, v) :: m, k' => if k = k' then some v else get? m k'

/-- `flat_hash_map::emplace` / `insert`: no effect if the key is present. -/
def emplace (m : List (κ × α)) (k : κ) (v : α) : List (κ × α) :=
  if (get? m k).isSome then m else m ++ [(k, v)]

/-- `flat_hash_map::operator[] =`. -/
def assign (m : List (κ × α)) (k : κ) (v : α) : List (κ × α) :=
  if (get? m k).isSome then m.map fun e => if e.1 = k then (k, v) else e else m ++ [(k, v)]

/-- `flat_hash_map::erase`. -/
def erase (m : List (κ × α)) (k : κ) : List (κ × α) := m.filter fun e => !decide (e.1 = k)

end Map

/-- The parts of a predicted `Object` that `MOT` reads. -/
structure Pred (ι : Type) where
  id : ι
  /-- `overlap_with_nlz` -/
  nlz : Bool

/-- The parts of a ground-truth `Object` that `MOT` reads. -/
structure Gt (ι : Type) where
  id : ι
  /-- `tracking_difficulty_level` -/
  level : Nat

/-- A frame: the matcher handed to `MOT::Eval`. -/
structure Input (ι : Type) where
  preds : List (Pred ι)
  gts : List (Gt ι)
  predSubset : List Nat
  gtSubset : List Nat
  canMatch : Nat → Nat → Option Bool
  iou : Nat → Nat → Option ℚ
  /-- `Match` with the given prediction and ground-truth subsets. -/
  doMatch : List Nat → List Nat → Option (List (Option Nat) × List (Option Nat))

/-- `TrackingMeasurement::Details`, protos/metrics.proto:286-297. -/
structure Details (ι : Type) where
  fpPred : List ι
  fnGt : List ι
  tpGt : List ι
  tpPred : List ι
  deriving DecidableEq

/-- `TrackingMeasurement`, protos/metrics.proto:269-301, without the score cutoff. -/
structure Measurement (ι : Type) where
  misses : ℤ := 0
  fps : ℤ := 0
  mismatches : ℤ := 0
  cost : ℚ := 0
  matches_ : ℤ := 0
  objectsGt : ℤ := 0
  details : List (Details ι) := []

/-- Members of `class MOT`, mot.h:124-131. -/
structure State (ι : Type) where
  meas : Measurement ι := {}
  gtPd : List (ι × ι) := []
  pdGt : List (ι × ι) := []

section
variable {ι : Type} [DecidableEq ι]

/-- One prediction of `BuildTrackingIdToDetectionBoxIndexMaps`, mot.cc:41-52: duplicates are ignored. -/
def buildPdStep (x : Input ι) (m : List (ι × Nat)) (e : Nat × Nat) : Option (List (ι × Nat)) :=
  match x.preds[e.1]? with
  | none => none
  | some o => some (emplace m o.id e.2)

/-- One ground truth of `BuildTrackingIdToDetectionBoxIndexMaps`, mot.cc:53-62: duplicates are fatal. -/
def buildGtStep (x : Input ι) (m : List (ι × Nat)) (e : Nat × Nat) : Option (List (ι × Nat)) :=
  match x.gts[e.1]? with
  | none => none
  | some o => if (get? m o.id).isSome then none else some (m ++ [(o.id, e.2)])

/-- Variables changed by the loop of `MOT::InitializeNewMapping`, mot.cc:192-209. -/
structure InitState (ι : Type) where
  pd : List (ι × Nat)
  gt : List (ι × Nat)
  new : List (ι × ι)
  cost : ℚ

/-- One round of the loop of `MOT::InitializeNewMapping`, mot.cc:193-208; `e` is a pair of the previous
mapping (ground truth id, prediction id). -/
def initStep (x : Input ι) (s : InitState ι) (e : ι × ι) : Option (InitState ι) :=
  match get? s.pd e.2 with
  | none => some s
  | some pi =>
    match get? s.gt e.1 with
    | none => some s
    | some gi =>
      match x.predSubset[pi]?, x.gtSubset[gi]? with
      | some p, some g =>
        match x.canMatch p g with
        | none => none
        | some false => some s
        | some true =>
          match x.iou p g with
          | none => none
          | some v => some ⟨erase s.pd e.2, erase s.gt e.1, emplace s.new e.1 e.2, s.cost + 1 - v⟩
      | _, _ => none

/-- `MOT::MatchResult` (mot.h:89-100) together with the running matching cost. -/
structure MatchResult (ι : Type) where
  fps : ℤ := 0
  fns : ℤ := 0
  above : ℤ := 0
  pairs : List (ι × ι) := []
  cost : ℚ

/-- One round of the loop over predictions in `MOT::Match`, mot.cc:244-262; `ps`, `gs` are the subsets
set at mot.cc:230-237, `e` is (`pd_matches[i]`, `i`). -/
def matchPdStep (x : Input ι) (ps gs : List Nat) (r : MatchResult ι) (e : Option Nat × Nat) :
    Option (MatchResult ι) :=
  match ps[e.2]? with
  | none => none
  | some pi =>
    match x.preds[pi]? with
    | none => none
    | some p =>
      match e.1 with
      | none => if p.nlz then some r else some { r with fps := r.fps + 1 }
      | some j =>
        match gs[j]? with
        | none => none
        | some gi =>
          match x.gts[gi]?, x.iou pi gi with
          | some g, some v => some { r with pairs := assign r.pairs g.id p.id, cost := r.cost + 1 - v }
          | _, _ => none

/-- One round of the loop over ground truths in `MOT::Match`, mot.cc:264-272, with
`internal::IsTrackingFN`, metrics_utils.cc:89-99. -/
def matchGtStep (x : Input ι) (gs : List Nat) (level : Nat) (r : MatchResult ι) (e : Option Nat × Nat) :
    Option (MatchResult ι) :=
  match e.1 with
  | some _ => some r
  | none =>
    match gs[e.2]? with
    | none => none
    | some gi =>
      match x.gts[gi]? with
      | none => none
      | some g =>
        if g.level ≤ level then some { r with fns := r.fns + 1 }
        else some { r with above := r.above + 1 }

/-- `MOT::Match`, mot.cc:213-284.  Also returns the subsets it leaves set in the matcher. -/
def matchRest (h : HashOrder) (x : Input ι) (level : Nat) (pd gt : List (ι × Nat)) (cost : ℚ) :
    Option (MatchResult ι × List Nat × List Nat) := do
  let ps ← (h.order pd).mapM fun e => x.predSubset[e.2]?
  let gs ← (h.order gt).mapM fun e => x.gtSubset[e.2]?
  let (pm, gm) ← x.doMatch ps gs
  let r ← pm.zipIdx.foldlM (matchPdStep x ps gs) { cost := cost }
  let r ← gm.zipIdx.foldlM (matchGtStep x gs level) r
  if (r.pairs.map Prod.snd).Nodup then some (r, ps, gs) else none

/-- One round of `MOT::ComputeNumMismatches`, mot.cc:298-322. -/
def mismatchStep (s : State ι) (new : List (ι × ι)) (gt : List (ι × Nat)) (n : ℤ) (e : ι × ι) : ℤ :=
  let n := match get? s.gtPd e.1 with
    | none => n
    | some q => if q ≠ e.2 then n + 1 else n
  match get? s.pdGt e.2 with
  | none => n
  | some g => if (get? gt g).isNone ∧ (get? new g).isNone then n + 1 else n

/-- One round of the update of the mapping, mot.cc:119-127. -/
def updateStep (pdGt new : List (ι × ι)) (s : List (ι × ι) × List ι) (e : ι × ι) :
    List (ι × ι) × List ι :=
  (assign s.1 e.1 e.2,
    match get? pdGt e.2 with
    | none => s.2
    | some g => if (get? new g).isNone then s.2 ++ [g] else s.2)

/-- One round of rebuilding the inverse map, mot.cc:132-135. -/
def invertStep (m : List (ι × ι)) (e : ι × ι) : Option (List (ι × ι)) :=
  if (get? m e.2).isSome then none else some (m ++ [(e.2, e.1)])

/-- The ids of unmatched ground truths in `Details`, mot.cc:149-162. -/
def detailFn (x : Input ι) (gs : List Nat) (new : List (ι × ι)) : Option (List ι) := do
  let ids ← gs.mapM fun i => (x.gts[i]?).map Gt.id
  return ids.filter fun i => !decide (i ∈ new.map Prod.fst)

/-- The ids of unmatched predictions in `Details`, mot.cc:163-176. -/
def detailFp (x : Input ι) (ps : List Nat) (new : List (ι × ι)) : Option (List ι) := do
  let ids ← ps.mapM fun i => (x.preds[i]?).map Pred.id
  return ids.filter fun i => !decide (i ∈ new.map Prod.snd)

/-- `MOT::Eval`, mot.cc:67-178. -/
def eval (h : HashOrder) (x : Input ι) (level : Nat) (details : Bool) (s : State ι) :
    Option (State ι) := do
  let pd ← x.predSubset.zipIdx.foldlM (buildPdStep x) []
  let gt ← x.gtSubset.zipIdx.foldlM (buildGtStep x) []
  let i ← (h.order s.gtPd).foldlM (initStep x) ⟨pd, gt, [], s.meas.cost⟩
  let (r, ps, gs) ← matchRest h x level i.pd i.gt i.cost
  let new := (h.order r.pairs).foldl (fun m e => emplace m e.1 e.2) i.new
  if (new.map Prod.snd).Nodup then do
    let mism := (h.order new).foldl (mismatchStep s new i.gt) 0
    let u := (h.order new).foldl (updateStep s.pdGt new) (s.gtPd, [])
    let gtPd := u.2.foldl erase u.1
    let pdGt ← (h.order gtPd).foldlM invertStep []
    let fn ← detailFn x gs new
    let fp ← detailFp x ps new
    let d : List (Details ι) := if details then
      [⟨fp, fn, (h.order new).map Prod.fst, (h.order new).map Prod.snd⟩] else []
    let m := s.meas
    some ⟨⟨m.misses + r.fns, m.fps + r.fps, m.mismatches + mism, r.cost, m.matches_ + new.length,
      m.objectsGt + x.gtSubset.length - r.above, m.details ++ d⟩, gtPd, pdGt⟩
  else none

/-- The evaluation of a sequence of frames as in tracking_metrics.cc:74-85: a fresh `MOT`, then `Eval`
per frame. -/
def run (level : Nat) (details : Bool) (frames : List (HashOrder × Input ι)) (s : State ι) :
    Option (State ι) :=
  frames.foldlM (fun s f => eval f.1 f.2 level details s) s

end

end Verif.Mot
