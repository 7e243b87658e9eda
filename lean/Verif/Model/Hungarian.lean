import Mathlib.Data.Int.Order.Basic

/-!
Model of `metrics/hungarian.cc` (Kuhn and Munkres' algorithm), lines 52-308.

Arrays indexed by `0..n-1` are functions on `Nat`; the flat weight array `edge` is a function on
`Nat` accessed at `i * n + j` as in the source.  `-1` in the matching arrays is `none`.
`OrderedSet` (lines 52-89) is the list of its elements in insertion order; `has` is membership.
A failing `CHECK`, `LOG(FATAL)`, an out-of-range vector access or an exhausted loop budget makes the
result `none`.  `weight_t = int` is `ℤ`; `numeric_limits<int>::max()` is kept as a number, so the
theorem about the result also says that 32 bit arithmetic suffices.
-/

namespace Verif.Hungarian

/-- `std::numeric_limits<weight_t>::max()` with `weight_t = int` (hungarian.h:29). -/
def weightMax : ℤ := 2147483647

/-- `class Matching`, hungarian.cc:93-118: `p_` and `ip_`. -/
structure Matching where
  p : Nat → Option Nat
  ip : Nat → Option Nat

/-- hungarian.cc:95. -/
def Matching.empty : Matching := ⟨fun _ => none, fun _ => none⟩

/-- `Matching::Add`, hungarian.cc:97-100. -/
def Matching.add (m : Matching) (i j : Nat) : Matching :=
  { p := fun x => if x = i then some j else m.p x,
    ip := fun y => if y = j then some i else m.ip y }

/-- `Matching::FindUnmatchedI`, hungarian.cc:107-109; `none` stands for `n`. -/
def Matching.findUnmatched (m : Matching) (n : Nat) : Option Nat :=
  (List.range n).find? fun i => (m.p i).isNone

/-- `OrderedSet::insert`, hungarian.cc:65-70. -/
def insertOrd (s : List Nat) (j : Nat) : List Nat := if j ∈ s then s else s ++ [j]

/-- The loop of `AddNeighbours` over `j`, hungarian.cc:127-131. -/
def addNbrs (n : Nat) (edge : Nat → ℤ) (lx ly : Nat → ℤ) (i : Nat) (N : List Nat) : List Nat :=
  (List.range n).foldl
    (fun N j => if lx i + ly j = edge (i * n + j) then insertOrd N j else N) N

/-- `AddNeighbours`, hungarian.cc:122-133: new members get `parent` as parent index. -/
def addNeighbours (n : Nat) (edge : Nat → ℤ) (lx ly : Nat → ℤ) (i parent : Nat)
    (NP : List Nat × List Nat) : List Nat × List Nat :=
  let N' := addNbrs n edge lx ly i NP.1
  (N', NP.2 ++ List.replicate (N'.length - NP.1.length) parent)

/-- `FindNeighbours`, hungarian.cc:136-145 (the loop body for index `ii` onwards). -/
def findNeighboursFrom (n : Nat) (edge : Nat → ℤ) (lx ly : Nat → ℤ) :
    Nat → List Nat → List Nat × List Nat → List Nat × List Nat
  | _, [], NP => NP
  | ii, i :: S, NP => findNeighboursFrom n edge lx ly (ii + 1) S (addNeighbours n edge lx ly i ii NP)

/-- `FindNeighbours`, hungarian.cc:136-145. -/
def findNeighbours (n : Nat) (edge : Nat → ℤ) (lx ly : Nat → ℤ) (S : List Nat) :
    List Nat × List Nat :=
  findNeighboursFrom n edge lx ly 0 S ([], [])

/-- The minimum slack computed in `ImproveFeasibleLabeling`, hungarian.cc:152-161. -/
def minSlack (n : Nat) (edge : Nat → ℤ) (S T : List Nat) (lx ly : Nat → ℤ) : ℤ :=
  S.foldl
    (fun a i => (List.range n).foldl
      (fun a j => if j ∈ T then a else min a (lx i + ly j - edge (i * n + j))) a)
    weightMax

/-- hungarian.cc:163: `for (i < S.size()) lx[S[i]] -= a`. -/
def lowerAll (lx : Nat → ℤ) (S : List Nat) (a : ℤ) : Nat → ℤ :=
  S.foldl (fun lx i => fun x => if x = i then lx i - a else lx x) lx

/-- hungarian.cc:164: `for (j < T.size()) ly[T[j]] += a`. -/
def raiseAll (ly : Nat → ℤ) (T : List Nat) (a : ℤ) : Nat → ℤ :=
  T.foldl (fun ly j => fun y => if y = j then ly j + a else ly y) ly

/-- `ImproveFeasibleLabeling`, hungarian.cc:149-165. -/
def improve (n : Nat) (edge : Nat → ℤ) (S T : List Nat) (lx ly : Nat → ℤ) :
    (Nat → ℤ) × (Nat → ℤ) :=
  let a := minSlack n edge S T lx ly
  (lowerAll lx S a, raiseAll ly T a)

/-- The loop of `AugmentMatching`, hungarian.cc:183-204; argument `k + 1` means the index `k` is
processed next, `0` that the loop ended (`LOG(FATAL)`). -/
def augLoop (S T parentT : List Nat) : Nat → Option Nat → Matching → Option Matching
  | 0, _, _ => none
  | k + 1, j, m =>
    match T[k]? with
    | none => none
    | some t =>
      if some t = j then
        match parentT[k]? with
        | none => none
        | some ii =>
          match S[ii]? with
          | none => none
          | some i =>
            let tmp := m.p i
            let m' := m.add i t
            if ii = 0 then
              if tmp = none then some m' else none
            else augLoop S T parentT k tmp m'
      else augLoop S T parentT k j m

/-- `AugmentMatching`, hungarian.cc:172-205. -/
def augment (S T parentT : List Nat) (m : Matching) : Option Matching :=
  if S.length = T.length then
    match T[T.length - 1]? with
    | none => none
    | some j => if m.ip j = none then augLoop S T parentT T.length (some j) m else none
  else none

/-- `PickY`, hungarian.cc:209-217: index of the first member of `N` that is not in `T`. -/
def pickY (N T : List Nat) : Option Nat := N.findIdx? fun j => decide (j ∉ T)

/-- `OrderedSet::operator==`, hungarian.cc:77-84. -/
def sameSet (N T : List Nat) : Bool :=
  N.length == T.length && N.all fun j => decide (j ∈ T)

/-- Variables of the inner loop, hungarian.cc:251-260. -/
structure Tree where
  lx : Nat → ℤ
  ly : Nat → ℤ
  S : List Nat
  T : List Nat
  parentT : List Nat
  N : List Nat
  parentN : List Nat

/-- hungarian.cc:285-288: improve the labels if `N == T`. -/
def refresh (n : Nat) (edge : Nat → ℤ) (t : Tree) : Tree :=
  if sameSet t.N t.T then
    let l := improve n edge t.S t.T t.lx t.ly
    let NP := findNeighbours n edge l.1 l.2 t.S
    { t with lx := l.1, ly := l.2, N := NP.1, parentN := NP.2 }
  else t

/-- The inner `while (true)`, hungarian.cc:283-306.  The first argument bounds the number of
iterations; running out of it is `none`. -/
def inner (n : Nat) (edge : Nat → ℤ) (m : Matching) : Nat → Tree →
    Option (Matching × (Nat → ℤ) × (Nat → ℤ))
  | 0, _ => none
  | fuel + 1, t0 =>
    let t := refresh n edge t0
    match pickY t.N t.T with
    | none => none
    | some jj =>
      match t.N[jj]?, t.parentN[jj]? with
      | some j, some par =>
        let T' := insertOrd t.T j
        let parentT' := t.parentT ++ [par]
        match m.ip j with
        | none =>
          match augment t.S T' parentT' m with
          | none => none
          | some m' => some (m', t.lx, t.ly)
        | some z =>
          let S' := t.S ++ [z]
          let NP := addNeighbours n edge t.lx t.ly z (S'.length - 1) (t.N, t.parentN)
          inner n edge m fuel { t with S := S', T := T', parentT := parentT', N := NP.1, parentN := NP.2 }
      | _, _ => none

/-- The outer `while (true)`, hungarian.cc:262-307, with a bound on its iterations; the inner loop
gets the bound `budget`. -/
def outer (n : Nat) (edge : Nat → ℤ) (budget : Nat) : Nat → Matching → (Nat → ℤ) → (Nat → ℤ) →
    Option (Matching × (Nat → ℤ) × (Nat → ℤ))
  | 0, _, _, _ => none
  | fuel + 1, m, lx, ly =>
    match m.findUnmatched n with
    | none => some (m, lx, ly)
    | some i =>
      let NP := findNeighbours n edge lx ly [i]
      match inner n edge m budget
        { lx := lx, ly := ly, S := [i], T := [], parentT := [], N := NP.1, parentN := NP.2 } with
      | none => none
      | some (m', lx', ly') => outer n edge budget fuel m' lx' ly'

/-- Initial labels, hungarian.cc:235-241. -/
def initLx (n : Nat) (edge : Nat → ℤ) (i : Nat) : ℤ :=
  (List.range n).foldl (fun a j => max a (edge (i * n + j))) 0

/-- `Hungarian(n, edge, perm, lx, ly)`, hungarian.cc:226-308: the permutation (as the list
`perm[0], ..., perm[n-1]`) and the final labels.  `budget` bounds the iterations of each loop. -/
def hungarian (budget n : Nat) (edge : Nat → ℤ) : Option (List Nat × (Nat → ℤ) × (Nat → ℤ)) :=
  if n = 0 then none
  else
    match outer n edge budget budget Matching.empty (initLx n edge) (fun _ => 0) with
    | none => none
    | some (m, lx, ly) =>
      match (List.range n).mapM m.p with
      | none => none
      | some perm => some (perm, lx, ly)

end Verif.Hungarian
