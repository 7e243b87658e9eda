import Mathlib.Data.List.Basic

/-!
Model of the serialisation of the configuration of the embedding codec: `CodecConfig.to_json` and `from_json` with the
parts of `json` and `dacite` that they use.  Texts are lists of characters.  How Python writes and reads a number is a
parameter (`Numbers`); that a float is read as the float that was written is a guarantee of Python and the hypothesis
`Numbers.Lawful` of the theorems.  Strings other than the keys, `true`, `false` and `null` do not occur in what
`to_json` writes; reading them is treated as an error, which is what `dacite` makes of them here.  `none` is an exception.
-/

namespace Verif.CodecJson

/-- The numbers of Python: how `json` writes (`float.__repr__`, `int.__repr__`, `NaN`, `Infinity`) and reads them, which
are integers, and for which `json.dumps` has no encoding (scalars such as `np.float32`). -/
structure Numbers (N : Type) where
  write : N → List Char
  read : List Char → Option N
  isInt : N → Bool
  encodable : N → Bool

/-- The values of JSON that occur: numbers, lists and dictionaries in the order of their entries. -/
inductive Json (N : Type) where
  | num (n : N)
  | arr (l : List (Json N))
  | obj (m : List (String × Json N))

/-- White space of JSON. -/
def isSpace (c : Char) : Bool := c = ' ' || c = '\n' || c = '\t' || c = '\r'

/-- Characters that can be part of the text of a number. -/
def isLiteral (c : Char) : Bool :=
  !(isSpace c || c = ',' || c = ']' || c = '}' || c = '[' || c = '{' || c = ':' || c = '"')

variable {N : Type}

/-- A new line at nesting depth `k` with `indent=2`. -/
def newline (k : Nat) : List Char := '\n' :: List.replicate (2 * k) ' '

/-- A key with the separator that `json.dumps` puts after it. -/
def writeKey (s : String) : List Char := '"' :: (s.toList ++ ['"', ':', ' '])

mutual

/-- `json.dumps(v, indent=2)` at nesting depth `k`, pca_codec.py:142. -/
def write (P : Numbers N) (k : Nat) : Json N → List Char
  | .num n => P.write n
  | .arr [] => ['[', ']']
  | .arr (v :: l) => '[' :: (newline (k + 1) ++ (write P (k + 1) v ++ writeItems P k l))
  | .obj [] => ['{', '}']
  | .obj ((s, v) :: l) => '{' :: (newline (k + 1) ++ (writeKey s ++ (write P (k + 1) v ++ writeMembers P k l)))

/-- The further items of a list at depth `k` and its closing bracket. -/
def writeItems (P : Numbers N) (k : Nat) : List (Json N) → List Char
  | [] => newline k ++ [']']
  | v :: l => ',' :: (newline (k + 1) ++ (write P (k + 1) v ++ writeItems P k l))

/-- The further entries of a dictionary at depth `k` and its closing bracket. -/
def writeMembers (P : Numbers N) (k : Nat) : List (String × Json N) → List Char
  | [] => newline k ++ ['}']
  | (s, v) :: l => ',' :: (newline (k + 1) ++ (writeKey s ++ (write P (k + 1) v ++ writeMembers P k l)))

end

mutual

/-- The numbers in a value. -/
def numbers : Json N → List N
  | .num n => [n]
  | .arr l => numbersList l
  | .obj m => numbersMembers m

/-- The numbers in the items of a list. -/
def numbersList : List (Json N) → List N
  | [] => []
  | v :: l => numbers v ++ numbersList l

/-- The numbers in the entries of a dictionary. -/
def numbersMembers : List (String × Json N) → List N
  | [] => []
  | (_, v) :: l => numbers v ++ numbersMembers l

end

/-- `json.dumps(v, indent=2)`, pca_codec.py:142: an error when a number has no encoding. -/
def dumps (P : Numbers N) (v : Json N) : Option (List Char) :=
  if (numbers v).all P.encodable then some (write P 0 v) else none

/-- Skips white space. -/
def skip (s : List Char) : List Char := s.dropWhile isSpace

/-- Reads a key and the colon after it; keys with escapes are not read. -/
def readKey (s : List Char) : Option (String × List Char) :=
  match skip s with
  | '"' :: r =>
    let key := r.takeWhile (· ≠ '"')
    if key.any (· = '\\') then none
    else match r.dropWhile (· ≠ '"') with
      | '"' :: r' =>
        match skip r' with
        | ':' :: r'' => some (String.ofList key, r'')
        | _ => none
      | _ => none
  | _ => none

mutual

/-- Reads a value at the beginning of a text and returns the rest; the number is a bound for the nesting. -/
def value (P : Numbers N) : Nat → List Char → Option (Json N × List Char)
  | 0, _ => none
  | f + 1, s =>
    match skip s with
    | '[' :: r =>
      match skip r with
      | ']' :: r' => some (.arr [], r')
      | r' => (items P f r').map fun p => (.arr p.1, p.2)
    | '{' :: r =>
      match skip r with
      | '}' :: r' => some (.obj [], r')
      | r' => (members P f r').map fun p => (.obj p.1, p.2)
    | r => (P.read (r.takeWhile isLiteral)).map fun n => (.num n, r.dropWhile isLiteral)

/-- Reads the items of a list that is not empty. -/
def items (P : Numbers N) : Nat → List Char → Option (List (Json N) × List Char)
  | 0, _ => none
  | f + 1, s =>
    match value P f s with
    | none => none
    | some (v, r) =>
      match skip r with
      | ',' :: r' => (items P f r').map fun p => (v :: p.1, p.2)
      | ']' :: r' => some ([v], r')
      | _ => none

/-- Reads the entries of a dictionary that is not empty. -/
def members (P : Numbers N) : Nat → List Char → Option (List (String × Json N) × List Char)
  | 0, _ => none
  | f + 1, s =>
    match readKey s with
    | none => none
    | some (key, r0) =>
      match value P f r0 with
      | none => none
      | some (v, r) =>
        match skip r with
        | ',' :: r' => (members P f r').map fun p => ((key, v) :: p.1, p.2)
        | '}' :: r' => some ([(key, v)], r')
        | _ => none

end

/-- `json.loads`, pca_codec.py:147: after the value there may only be white space. -/
def loads (P : Numbers N) (s : List Char) : Option (Json N) :=
  match value P (s.length + 1) s with
  | some (v, r) => if skip r = [] then some v else none
  | none => none

/-- `PcaParams`, pca_codec.py:30-47. -/
structure PcaParams (N : Type) where
  mean : List N
  std : List N
  eigenVectors : List (List N)
  eigenValues : List N

/-- `CodecConfig`, pca_codec.py:132-138. -/
structure CodecConfig (N : Type) where
  pca : PcaParams N
  quantization : List N
  tileSize : N

/-- A list of numbers as a value. -/
def ofList (l : List N) : Json N := .arr (l.map .num)

/-- `dataclasses.asdict` of the configuration, pca_codec.py:142: the fields in the order of their declaration. -/
def asDict (c : CodecConfig N) : Json N :=
  .obj [("pca", .obj [("mean", ofList c.pca.mean), ("std", ofList c.pca.std),
      ("eigen_vectors", .arr (c.pca.eigenVectors.map ofList)), ("eigen_values", ofList c.pca.eigenValues)]),
    ("quantization", ofList c.quantization), ("tile_size", .num c.tileSize)]

/-- `CodecConfig.to_json`, pca_codec.py:140-142. -/
def toJson (P : Numbers N) (c : CodecConfig N) : Option (List Char) := dumps P (asDict c)

/-- The entry of a dictionary: of equal keys the last counts. -/
def field (m : List (String × Json N)) (key : String) : Option (Json N) :=
  (m.reverse.find? fun e => e.1 == key).map Prod.snd

/-- `dacite` for the type `float`: integers are accepted as well. -/
def toFloat : Json N → Option N
  | .num n => some n
  | _ => none

/-- `dacite` for the type `int`. -/
def toInt (P : Numbers N) : Json N → Option N
  | .num n => if P.isInt n then some n else none
  | _ => none

/-- `dacite` for the type `list[T]`. -/
def toListOf {α : Type} (f : Json N → Option α) : Json N → Option (List α)
  | .arr l => l.mapM f
  | _ => none

/-- `dacite.from_dict` for `PcaParams`: a missing field or one of another type is an error, other entries are ignored. -/
def toPca : Json N → Option (PcaParams N)
  | .obj m => do
    let mean ← (field m "mean").bind (toListOf toFloat)
    let std ← (field m "std").bind (toListOf toFloat)
    let vectors ← (field m "eigen_vectors").bind (toListOf (toListOf toFloat))
    let values ← (field m "eigen_values").bind (toListOf toFloat)
    pure ⟨mean, std, vectors, values⟩
  | _ => none

/-- `dacite.from_dict` for `CodecConfig`, pca_codec.py:147. -/
def toConfig (P : Numbers N) : Json N → Option (CodecConfig N)
  | .obj m => do
    let pca ← (field m "pca").bind toPca
    let quantization ← (field m "quantization").bind (toListOf toFloat)
    let tile ← (field m "tile_size").bind (toInt P)
    pure ⟨pca, quantization, tile⟩
  | _ => none

/-- `CodecConfig.from_json`, pca_codec.py:144-147. -/
def fromJson (P : Numbers N) (s : List Char) : Option (CodecConfig N) := (loads P s).bind (toConfig P)

end Verif.CodecJson
