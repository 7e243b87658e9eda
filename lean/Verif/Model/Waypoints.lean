import Mathlib.Data.Int.Notation
import Mathlib.Data.List.Basic
import Mathlib.Data.Int.Basic

/-!
Model of the containers of utils/occupancy_flow_grids.py:88-171 and utils/occupancy_flow_data.py:33-51 (paths relative to /repo/src/waymo_open_dataset): the
grids of the way points for the three types of agents.  A grid is a value of any type.
-/

namespace Verif.Waypoints

/-- The four lists of `_WaypointGridsOneType`, occupancy_flow_grids.py:91-107. -/
inductive Field
  | observed | occluded | flow | flowOrigin
  deriving DecidableEq

/-- `_WaypointGridsOneType`, occupancy_flow_grids.py:91-107. -/
structure OneType (β : Type) where
  observed : List β := []
  occluded : List β := []
  flow : List β := []
  flowOrigin : List β := []

/-- The list of a field. -/
def OneType.get {β : Type} (o : OneType β) : Field → List β
  | .observed => o.observed
  | .occluded => o.occluded
  | .flow => o.flow
  | .flowOrigin => o.flowOrigin

/-- `append` to the list of a field. -/
def OneType.append {β : Type} (o : OneType β) (g : β) : Field → OneType β
  | .observed => { o with observed := o.observed ++ [g] }
  | .occluded => { o with occluded := o.occluded ++ [g] }
  | .flow => { o with flow := o.flow ++ [g] }
  | .flowOrigin => { o with flowOrigin := o.flowOrigin ++ [g] }

/-- `WaypointGrids`, occupancy_flow_grids.py:110-122. -/
structure Grids (β : Type) where
  vehicles : OneType β := {}
  pedestrians : OneType β := {}
  cyclists : OneType β := {}

/-- `WaypointGrids.view`, occupancy_flow_grids.py:124-133.  The types are those of `Track.ObjectType`, scenario.proto: 1 for vehicles, 2 for pedestrians and 3 for cyclists. -/
def Grids.view {β : Type} (w : Grids β) (t : ℤ) : Option (OneType β) :=
  if t = 1 then some w.vehicles
  else if t = 2 then some w.pedestrians
  else if t = 3 then some w.cyclists
  else none

/-- `waypoint_grids.view(object_type).<field>.append(grid)`, occupancy_flow_grids.py:355-357, 387-389, 437-439 and 482: the object returned by `view` is part of the grids. -/
def Grids.put {β : Type} (w : Grids β) (t : ℤ) (f : Field) (g : β) : Option (Grids β) :=
  if t = 1 then some { w with vehicles := w.vehicles.append g f }
  else if t = 2 then some { w with pedestrians := w.pedestrians.append g f }
  else if t = 3 then some { w with cyclists := w.cyclists.append g f }
  else none

/-- `AgentGrids`, occupancy_flow_data.py:35-40. -/
structure AgentGrids (β : Type) where
  vehicles : Option β := none
  pedestrians : Option β := none
  cyclists : Option β := none

/-- `AgentGrids.view`, occupancy_flow_data.py:42-51. -/
def AgentGrids.view {β : Type} (a : AgentGrids β) (t : ℤ) : Option (Option β) :=
  if t = 1 then some a.vehicles
  else if t = 2 then some a.pedestrians
  else if t = 3 then some a.cyclists
  else none

/-- `list[k]` of Python. -/
def pyIndex {β : Type} (l : List β) (k : ℤ) : Option β :=
  if 0 ≤ k then l[k.toNat]? else if 0 ≤ l.length + k then l[(l.length + k).toNat]? else none

/-- `if list: agent_grids.x = list[k]`. -/
def pick {β : Type} (l : List β) (k : ℤ) : Option (Option β) := if l = [] then some none else (pyIndex l k).map some

/-- `get_observed_occupancy_at_waypoint`, `get_occluded_occupancy_at_waypoint` and `get_flow_at_waypoint`, occupancy_flow_grids.py:135-171.  The origins of the flow have no such
method. -/
def Grids.at' {β : Type} (w : Grids β) (f : Field) (k : ℤ) : Option (AgentGrids β) := do
  let v ← pick (w.vehicles.get f) k
  let p ← pick (w.pedestrians.get f) k
  let c ← pick (w.cyclists.get f) k
  pure ⟨v, p, c⟩

/-- `ALL_AGENT_TYPES`, occupancy_flow_data.py:24-28. -/
def allTypes : List ℤ := [1, 2, 3]

/-- A sequence of calls of `append`. -/
def Grids.puts {β : Type} (w : Grids β) : List (ℤ × Field × β) → Option (Grids β)
  | [] => some w
  | x :: rest => (w.put x.1 x.2.1 x.2.2).bind fun w => w.puts rest

/-- The two loops of the functions that add the ground truth, occupancy_flow_grids.py:340-357, 372-389, 418-439 and 454-482: for every type and way point the grid `grid type k` of a field. -/
def Grids.fill {β : Type} (w : Grids β) (f : Field) (n : ℕ) (grid : ℤ → ℕ → β) : Option (Grids β) :=
  w.puts (allTypes.flatMap fun t => (List.range n).map fun k => (t, f, grid t k))

end Verif.Waypoints
