import Verif.Model.CodecJson
import Mathlib.Tactic.SplitIfs

/-!
C227: a configuration of the embedding codec that is saved as JSON is loaded again as it was.
-/

namespace Verif.CodecJson

variable {N : Type}

/-- What Python guarantees of the numbers it can write: the text is not empty, has no delimiters, and is read as the
number that was written. -/
structure Numbers.Lawful (P : Numbers N) : Prop where
  nonempty : ∀ n, P.encodable n = true → P.write n ≠ []
  literal : ∀ n, P.encodable n = true → ∀ c ∈ P.write n, isLiteral c = true
  read_write : ∀ n, P.encodable n = true → P.read (P.write n) = some n

/-- Keys without quotes and backslashes, which are written as they are. -/
def PlainKey (s : String) : Prop := '"' ∉ s.toList ∧ '\\' ∉ s.toList

mutual

/-- The keys in a value. -/
def keys : Json N → List String
  | .num _ => []
  | .arr l => keysList l
  | .obj m => keysMembers m

/-- The keys in the items of a list. -/
def keysList : List (Json N) → List String
  | [] => []
  | v :: l => keys v ++ keysList l

/-- The keys in the entries of a dictionary. -/
def keysMembers : List (String × Json N) → List String
  | [] => []
  | (s, v) :: l => s :: (keys v ++ keysMembers l)

end

mutual

/-- How deep the reader has to go. -/
def need : Json N → Nat
  | .num _ => 1
  | .arr l => 1 + needList l
  | .obj m => 1 + needMembers m

/-- See `need`. -/
def needList : List (Json N) → Nat
  | [] => 0
  | v :: l => 1 + need v + needList l

/-- See `need`. -/
def needMembers : List (String × Json N) → Nat
  | [] => 0
  | (_, v) :: l => 1 + need v + needMembers l

end

/-- A value that can be written: its numbers have encodings and its keys are plain. -/
structure Good (P : Numbers N) (v : Json N) : Prop where
  nums : ∀ n ∈ numbers v, P.encodable n = true
  plain : ∀ s ∈ keys v, PlainKey s

/-- The text does not go on with the text of a number. -/
def Boundary (s : List Char) : Prop := ∀ c t, s = c :: t → isLiteral c = false

theorem skip_newline (k : Nat) (s : List Char) : skip (newline k ++ s) = skip s := by
  unfold skip newline
  have h : ∀ m, (List.replicate m ' ' ++ s).dropWhile isSpace = s.dropWhile isSpace := by
    intro m
    induction m with
    | zero => rfl
    | succ m ih => simpa [List.replicate_succ, isSpace] using ih
  simpa [isSpace] using h (2 * k)

theorem skip_cons {c : Char} (h : isSpace c = false) (t : List Char) : skip (c :: t) = c :: t := by
  simp [skip, h]

/-- The text of a value begins with a bracket or with the text of a number. -/
theorem write_head (P : Numbers N) (L : P.Lawful) (k : Nat) (v : Json N) (h : Good P v) :
    ∃ c t, write P k v = c :: t ∧ isSpace c = false ∧ c ≠ ']' ∧ c ≠ '}' := by
  cases v with
  | num n =>
    have he := h.nums n (by simp [numbers])
    have h1 := L.nonempty n he
    have h2 := L.literal n he
    simp only [write]
    cases hw : P.write n with
    | nil => exact absurd hw h1
    | cons c t =>
      have := h2 c (by simp [hw])
      refine ⟨c, t, rfl, ?_, ?_, ?_⟩
      · simp only [isLiteral] at this; simp_all
      · rintro rfl; simp [isLiteral] at this
      · rintro rfl; simp [isLiteral] at this
  | arr l =>
    cases l with
    | nil => exact ⟨'[', [']'], by simp [write], by decide, by decide, by decide⟩
    | cons v l => exact ⟨'[', _, by rw [write], by decide, by decide, by decide⟩
  | obj l =>
    cases l with
    | nil => exact ⟨'{', ['}'], by simp [write], by decide, by decide, by decide⟩
    | cons v l => obtain ⟨e, v⟩ := v; exact ⟨'{', _, by rw [write], by decide, by decide, by decide⟩

theorem takeWhile_literal {a b : List Char} (ha : ∀ c ∈ a, isLiteral c = true) (hb : Boundary b) :
    (a ++ b).takeWhile isLiteral = a ∧ (a ++ b).dropWhile isLiteral = b := by
  induction a with
  | nil =>
    cases b with
    | nil => simp
    | cons c t => have := hb c t rfl; simp [this]
  | cons x a ih =>
    have hx := ha x (by simp)
    have := ih fun c hc => ha c (by simp [hc])
    simp [hx, this]

theorem readKey_write (s : String) (hs : PlainKey s) (r t : List Char) (ht : skip t = writeKey s ++ r) :
    readKey t = some (s, ' ' :: r) := by
  have htake : ∀ l : List Char, '"' ∉ l → ∀ u, (l ++ '"' :: u).takeWhile (· ≠ '"') = l ∧
      (l ++ '"' :: u).dropWhile (· ≠ '"') = '"' :: u := by
    intro l
    induction l with
    | nil => intro _ u; simp
    | cons x l ih =>
      intro hl u
      have hx : x ≠ '"' := fun h => hl (by simp [h])
      have := ih (fun h => hl (by simp [h])) u
      simpa [hx] using this
  have := htake s.toList hs.1 (':' :: ' ' :: r)
  have ht' : skip t = '"' :: (s.toList ++ '"' :: ':' :: ' ' :: r) := by rw [ht]; simp [writeKey]
  have hany : s.toList.any (· = '\\') = false := by
    rw [List.any_eq_false]
    intro c hc
    have : c ≠ '\\' := fun h => hs.2 (h ▸ hc)
    simpa using this
  unfold readKey
  rw [ht']
  simp only [this.1, this.2, hany]
  simp [skip, isSpace]

theorem boundary_items (P : Numbers N) (k : Nat) (l : List (Json N)) (r : List Char) :
    Boundary (writeItems P k l ++ r) := by
  intro c t h
  cases l with
  | nil => simp [writeItems, newline] at h; rw [← h.1]; decide
  | cons v l => simp [writeItems] at h; rw [← h.1]; decide

theorem boundary_members (P : Numbers N) (k : Nat) (l : List (String × Json N)) (r : List Char) :
    Boundary (writeMembers P k l ++ r) := by
  intro c t h
  cases l with
  | nil => simp [writeMembers, newline] at h; rw [← h.1]; decide
  | cons v l => simp [writeMembers] at h; rw [← h.1]; decide

theorem Good.head {P : Numbers N} {v : Json N} {l : List (Json N)} (h : Good P (.arr (v :: l))) : Good P v :=
  ⟨fun n hn => h.nums n (by simp [numbers, numbersList, hn]), fun s hs => h.plain s (by simp [keys, keysList, hs])⟩

theorem Good.tail {P : Numbers N} {v : Json N} {l : List (Json N)} (h : Good P (.arr (v :: l))) : Good P (.arr l) :=
  ⟨fun n hn => h.nums n (by simp only [numbers] at hn; simp [numbers, numbersList, hn]),
    fun s hs => h.plain s (by simp only [keys] at hs; simp [keys, keysList, hs])⟩

theorem Good.mhead {P : Numbers N} {e : String} {v : Json N} {l : List (String × Json N)}
    (h : Good P (.obj ((e, v) :: l))) : Good P v :=
  ⟨fun n hn => h.nums n (by simp [numbers, numbersMembers, hn]), fun s hs => h.plain s (by simp [keys, keysMembers, hs])⟩

theorem Good.mtail {P : Numbers N} {e : String} {v : Json N} {l : List (String × Json N)}
    (h : Good P (.obj ((e, v) :: l))) : Good P (.obj l) :=
  ⟨fun n hn => h.nums n (by simp only [numbers] at hn; simp [numbers, numbersMembers, hn]),
    fun s hs => h.plain s (by simp only [keys] at hs; simp [keys, keysMembers, hs])⟩

theorem Good.mkey {P : Numbers N} {e : String} {v : Json N} {l : List (String × Json N)}
    (h : Good P (.obj ((e, v) :: l))) : PlainKey e := h.plain e (by simp [keys, keysMembers])

theorem value_num (P : Numbers N) (f : Nat) {s t : List Char} {c : Char} (hs : skip s = c :: t) (h1 : c ≠ '[')
    (h2 : c ≠ '{') : value P (f + 1) s =
      (P.read ((c :: t).takeWhile isLiteral)).map fun n => (.num n, (c :: t).dropWhile isLiteral) := by
  rw [value, hs]
  split
  · rename_i h; exact absurd (List.cons.inj h).1 h1
  · rename_i h; exact absurd (List.cons.inj h).1 h2
  · rfl

theorem value_arr_nil (P : Numbers N) (f : Nat) {s r r' : List Char} (hs : skip s = '[' :: r) (hr : skip r = ']' :: r') :
    value P (f + 1) s = some (.arr [], r') := by
  rw [value, hs]
  simp [hr]

theorem value_arr (P : Numbers N) (f : Nat) {s r t : List Char} {c : Char} (hs : skip s = '[' :: r)
    (hr : skip r = c :: t) (hc : c ≠ ']') :
    value P (f + 1) s = (items P f (c :: t)).map fun p => (.arr p.1, p.2) := by
  rw [value, hs]
  simp only [hr]
  split
  · rename_i h; exact absurd (List.cons.inj h).1 hc
  · rfl

theorem value_obj_nil (P : Numbers N) (f : Nat) {s r r' : List Char} (hs : skip s = '{' :: r) (hr : skip r = '}' :: r') :
    value P (f + 1) s = some (.obj [], r') := by
  rw [value, hs]
  simp [hr]

theorem value_obj (P : Numbers N) (f : Nat) {s r t : List Char} {c : Char} (hs : skip s = '{' :: r)
    (hr : skip r = c :: t) (hc : c ≠ '}') :
    value P (f + 1) s = (members P f (c :: t)).map fun p => (.obj p.1, p.2) := by
  rw [value, hs]
  simp only [hr]
  split
  · rename_i h; exact absurd (List.cons.inj h).1 hc
  · rfl

mutual

/-- Reading the text of a value, followed by anything that does not go on with a number, gives the value and the rest. -/
theorem value_write (P : Numbers N) (L : P.Lawful) : ∀ (v : Json N), Good P v → ∀ (k f : Nat) (s r : List Char),
    need v ≤ f → Boundary r → skip s = write P k v ++ r → value P f s = some (v, r)
  | .num n, h, k, 0, s, r, hf, hr, hs => by simp [need] at hf
  | .num n, h, k, f + 1, s, r, hf, hr, hs => by
    have he := h.nums n (by simp [numbers])
    obtain ⟨c, t, hc, hsp, -, -⟩ := write_head P L k (.num n) h
    simp only [write] at hc hs
    have hcl := L.literal n he c (by simp [hc])
    have htk := takeWhile_literal (L.literal n he) hr
    have hrd := L.read_write n he
    have h1 : c ≠ '[' := by rintro rfl; simp [isLiteral] at hcl
    have h2 : c ≠ '{' := by rintro rfl; simp [isLiteral] at hcl
    have hs' : skip s = c :: (t ++ r) := by rw [hs, hc]; rfl
    rw [value_num P f hs' h1 h2]
    have : c :: (t ++ r) = P.write n ++ r := by rw [hc]; rfl
    rw [this, htk.1, htk.2, hrd]
    rfl
  | .arr [], h, k, 0, s, r, hf, hr, hs => by simp [need] at hf
  | .arr [], h, k, f + 1, s, r, hf, hr, hs => by
    simp only [write] at hs
    exact value_arr_nil P f (r := ']' :: r) hs (skip_cons (by decide) _)
  | .arr (v :: l), h, k, 0, s, r, hf, hr, hs => by simp [need] at hf
  | .arr (v :: l), h, k, f + 1, s, r, hf, hr, hs => by
    obtain ⟨c, t, hc, hsp, hne, -⟩ := write_head P L (k + 1) v h.head
    have hi := items_write P L (v :: l) h v l k f (c :: (t ++ (writeItems P k l ++ r))) r rfl
      (by simp only [need] at hf; omega) (by rw [skip_cons hsp, hc]; rfl)
    have hs' : skip s = '[' :: (newline (k + 1) ++ (c :: (t ++ (writeItems P k l ++ r)))) := by
      rw [hs]; simp only [write, hc]; simp
    rw [value_arr P f hs' (by rw [skip_newline, skip_cons hsp]) hne, hi]
    rfl
  | .obj [], h, k, 0, s, r, hf, hr, hs => by simp [need] at hf
  | .obj [], h, k, f + 1, s, r, hf, hr, hs => by
    simp only [write] at hs
    exact value_obj_nil P f (r := '}' :: r) hs (skip_cons (by decide) _)
  | .obj ((e, v) :: l), h, k, 0, s, r, hf, hr, hs => by simp [need] at hf
  | .obj ((e, v) :: l), h, k, f + 1, s, r, hf, hr, hs => by
    have hq : writeKey e = '"' :: (e.toList ++ ['"', ':', ' ']) := rfl
    have hi := members_write P L ((e, v) :: l) h e v l k f
      ('"' :: (e.toList ++ ['"', ':', ' '] ++ (write P (k + 1) v ++ (writeMembers P k l ++ r)))) r rfl
      (by simp only [need] at hf; omega) (by rw [skip_cons (by decide), hq]; rfl)
    have hs' : skip s = '{' :: (newline (k + 1) ++
        ('"' :: (e.toList ++ ['"', ':', ' '] ++ (write P (k + 1) v ++ (writeMembers P k l ++ r))))) := by
      rw [hs]; simp only [write, hq]; simp
    rw [value_obj P f hs' (by rw [skip_newline, skip_cons (by decide)]) (by decide), hi]
    rfl

/-- Reading the items of a list. -/
theorem items_write (P : Numbers N) (L : P.Lawful) : ∀ (l : List (Json N)), Good P (.arr l) →
    ∀ (v : Json N) (l' : List (Json N)) (k f : Nat) (s r : List Char), l = v :: l' →
    needList l ≤ f → skip s = write P (k + 1) v ++ (writeItems P k l' ++ r) → items P f s = some (l, r)
  | [], _, _, _, _, _, _, _, h, _, _ => by simp at h
  | v :: l, h, v', l', k, 0, s, r, hl, hf, hs => by simp [needList] at hf
  | v :: [], h, v', l', k, f + 1, s, r, hl, hf, hs => by
    obtain ⟨rfl, rfl⟩ := List.cons.inj hl
    have hv := value_write P L v h.head (k + 1) f s _ (by simp only [needList] at hf; omega)
      (boundary_items P k [] r) hs
    have hk : skip (writeItems P k [] ++ r) = ']' :: r := by
      simp only [writeItems, List.append_assoc]
      rw [skip_newline, List.cons_append, skip_cons (by decide)]
      rfl
    rw [items, hv]
    simp [hk]
  | v :: w :: l, h, v', l', k, f + 1, s, r, hl, hf, hs => by
    obtain ⟨rfl, rfl⟩ := List.cons.inj hl
    have hv := value_write P L v h.head (k + 1) f s _ (by simp only [needList] at hf; omega)
      (boundary_items P k (w :: l) r) hs
    have hk : skip (writeItems P k (w :: l) ++ r) =
        ',' :: (newline (k + 1) ++ (write P (k + 1) w ++ (writeItems P k l ++ r))) := by
      simp only [writeItems, List.append_assoc, List.cons_append]
      rw [skip_cons (by decide)]
    obtain ⟨c, t, hc, hsp, -, -⟩ := write_head P L (k + 1) w h.tail.head
    have hi := items_write P L (w :: l) h.tail w l k f
      (newline (k + 1) ++ (write P (k + 1) w ++ (writeItems P k l ++ r))) r rfl
      (by simp only [needList] at hf ⊢; omega) (by rw [skip_newline, hc, List.cons_append, skip_cons hsp])
    rw [items, hv]
    simp [hk, hi]

/-- Reading the entries of a dictionary. -/
theorem members_write (P : Numbers N) (L : P.Lawful) : ∀ (l : List (String × Json N)), Good P (.obj l) →
    ∀ (e : String) (v : Json N) (l' : List (String × Json N)) (k f : Nat) (s r : List Char), l = (e, v) :: l' →
    needMembers l ≤ f → skip s = writeKey e ++ (write P (k + 1) v ++ (writeMembers P k l' ++ r)) →
    members P f s = some (l, r)
  | [], _, _, _, _, _, _, _, _, h, _, _ => by simp at h
  | (e, v) :: l, h, e', v', l', k, 0, s, r, hl, hf, hs => by simp [needMembers] at hf
  | (e, v) :: [], h, e', v', l', k, f + 1, s, r, hl, hf, hs => by
    obtain ⟨he, rfl⟩ := List.cons.inj hl
    obtain ⟨rfl, rfl⟩ := Prod.mk.inj he
    have hkey := readKey_write e h.mkey _ s hs
    obtain ⟨c, t, hc, hsp, -, -⟩ := write_head P L (k + 1) v h.mhead
    have hv := value_write P L v h.mhead (k + 1) f (' ' :: (write P (k + 1) v ++ (writeMembers P k [] ++ r))) _
      (by simp only [needMembers] at hf; omega) (boundary_members P k [] r)
      (by rw [hc, List.cons_append]; simp only [skip]; rw [List.dropWhile_cons_of_pos (by decide)]; simp [hsp])
    have hk : skip (writeMembers P k [] ++ r) = '}' :: r := by
      simp only [writeMembers, List.append_assoc]
      rw [skip_newline, List.cons_append, skip_cons (by decide)]
      rfl
    rw [members, hkey]
    simp only [hv]
    simp [hk]
  | (e, v) :: (e2, w) :: l, h, e', v', l', k, f + 1, s, r, hl, hf, hs => by
    obtain ⟨he, rfl⟩ := List.cons.inj hl
    obtain ⟨rfl, rfl⟩ := Prod.mk.inj he
    have hkey := readKey_write e h.mkey _ s hs
    obtain ⟨c, t, hc, hsp, -, -⟩ := write_head P L (k + 1) v h.mhead
    have hv := value_write P L v h.mhead (k + 1) f
      (' ' :: (write P (k + 1) v ++ (writeMembers P k ((e2, w) :: l) ++ r))) _
      (by simp only [needMembers] at hf; omega) (boundary_members P k ((e2, w) :: l) r)
      (by rw [hc, List.cons_append]; simp only [skip]; rw [List.dropWhile_cons_of_pos (by decide)]; simp [hsp])
    have hk : skip (writeMembers P k ((e2, w) :: l) ++ r) =
        ',' :: (newline (k + 1) ++ (writeKey e2 ++ (write P (k + 1) w ++ (writeMembers P k l ++ r)))) := by
      simp only [writeMembers, List.append_assoc, List.cons_append]
      rw [skip_cons (by decide)]
    have hi := members_write P L ((e2, w) :: l) h.mtail e2 w l k f
      (newline (k + 1) ++ (writeKey e2 ++ (write P (k + 1) w ++ (writeMembers P k l ++ r)))) r rfl
      (by simp only [needMembers] at hf ⊢; omega)
      (by rw [skip_newline, writeKey, List.cons_append, skip_cons (by decide)])
    rw [members, hkey]
    simp only [hv]
    simp [hk, hi]

end

mutual

theorem need_le (P : Numbers N) (L : P.Lawful) : ∀ (v : Json N), Good P v → ∀ k, need v ≤ (write P k v).length
  | .num n, h, k => by
    have := List.length_pos_iff.2 (L.nonempty n (h.nums n (by simp [numbers])))
    simp only [need, write]
    exact this
  | .arr [], h, k => by simp [need, needList, write]
  | .arr (v :: l), h, k => by
    have h1 := need_le P L v h.head (k + 1)
    have h2 := needList_le P L l h.tail k
    simp only [need, needList, write, List.length_cons, List.length_append]
    have : 1 ≤ (newline (k + 1)).length := by simp [newline]
    omega
  | .obj [], h, k => by simp [need, needMembers, write]
  | .obj ((e, v) :: l), h, k => by
    have h1 := need_le P L v h.mhead (k + 1)
    have h2 := needMembers_le P L l h.mtail k
    simp only [need, needMembers, write, List.length_cons, List.length_append]
    have : 1 ≤ (newline (k + 1)).length := by simp [newline]
    omega

theorem needList_le (P : Numbers N) (L : P.Lawful) : ∀ (l : List (Json N)), Good P (.arr l) → ∀ k,
    needList l ≤ (writeItems P k l).length
  | [], _, k => by simp [needList]
  | v :: l, h, k => by
    have h1 := need_le P L v h.head (k + 1)
    have h2 := needList_le P L l h.tail k
    simp only [needList, writeItems, List.length_cons, List.length_append]
    omega

theorem needMembers_le (P : Numbers N) (L : P.Lawful) : ∀ (l : List (String × Json N)), Good P (.obj l) → ∀ k,
    needMembers l ≤ (writeMembers P k l).length
  | [], _, k => by simp [needMembers]
  | (e, v) :: l, h, k => by
    have h1 := need_le P L v h.mhead (k + 1)
    have h2 := needMembers_le P L l h.mtail k
    simp only [needMembers, writeMembers, List.length_cons, List.length_append]
    omega

end

/-- Every value whose keys are plain is read as it was written, whatever its size and depth. -/
theorem loads_dumps (P : Numbers N) (L : P.Lawful) (v : Json N) (hk : ∀ s ∈ keys v, PlainKey s) {text : List Char}
    (h : dumps P v = some text) : loads P text = some v := by
  unfold dumps at h
  split_ifs at h with hn
  cases h
  have hg : Good P v := ⟨fun n hn' => List.all_eq_true.1 hn n hn', hk⟩
  obtain ⟨c, t, hc, hsp, -, -⟩ := write_head P L 0 v hg
  have := value_write P L v hg 0 ((write P 0 v).length + 1) (write P 0 v) []
    (Nat.le_succ_of_le (need_le P L v hg 0)) (by intro c t h; cases h) (by rw [List.append_nil, hc, skip_cons hsp])
  unfold loads
  rw [this]
  simp [skip]

/-- After the value there may be white space; anything else is an error. -/
theorem loads_append (P : Numbers N) (L : P.Lawful) (v : Json N) (hk : ∀ s ∈ keys v, PlainKey s) {text : List Char}
    (h : dumps P v = some text) (r : List Char) (hr : Boundary r) :
    loads P (text ++ r) = if ∀ c ∈ r, isSpace c = true then some v else none := by
  unfold dumps at h
  split_ifs at h with hn
  cases h
  have hg : Good P v := ⟨fun n hn' => List.all_eq_true.1 hn n hn', hk⟩
  obtain ⟨c, t, hc, hsp, -, -⟩ := write_head P L 0 v hg
  have := value_write P L v hg 0 ((write P 0 v ++ r).length + 1) (write P 0 v ++ r) r
    (by have := need_le P L v hg 0; rw [List.length_append]; omega) hr
    (by rw [hc, List.cons_append, skip_cons hsp])
  unfold loads
  rw [this]
  have hd : ∀ l : List Char, skip l = [] ↔ ∀ c ∈ l, isSpace c = true := by
    intro l
    induction l with
    | nil => simp [skip]
    | cons x l ih => cases hx : isSpace x <;> simp_all [skip]
  simp only [hd]

/-! ## The configuration -/

/-- All numbers of a configuration. -/
def allNumbers (c : CodecConfig N) : List N :=
  c.pca.mean ++ (c.pca.std ++ (c.pca.eigenVectors.flatten ++ (c.pca.eigenValues ++ (c.quantization ++ [c.tileSize]))))

theorem numbersList_num (l : List N) : numbersList (l.map .num) = l := by
  induction l with
  | nil => rfl
  | cons a l ih => simp [numbersList, numbers, ih]

theorem numbers_asDict (c : CodecConfig N) : numbers (asDict c) = allNumbers c := by
  have h : ∀ l : List (List N), numbersList (l.map ofList) = l.flatten := by
    intro l
    induction l with
    | nil => rfl
    | cons a l ih => simp [numbersList, numbers, ofList, numbersList_num, ih]
  simp [asDict, numbers, numbersMembers, ofList, numbersList_num, h, allNumbers]

theorem keys_asDict (c : CodecConfig N) : keys (asDict c) =
    ["pca", "mean", "std", "eigen_vectors", "eigen_values", "quantization", "tile_size"] := by
  have h0 : ∀ l : List N, keysList (l.map Json.num) = [] := by
    intro l
    induction l with
    | nil => rfl
    | cons a l ih => simp [keysList, keys, ih]
  have h : ∀ l : List (List N), keysList (l.map ofList) = [] := by
    intro l
    induction l with
    | nil => rfl
    | cons a l ih => simp [keysList, keys, ofList, h0, ih]
  simp [asDict, keys, keysMembers, ofList, h0, h]

theorem toListOf_ofList (l : List N) : toListOf toFloat (ofList l) = some l := by
  unfold ofList toListOf
  induction l with
  | nil => rfl
  | cons a l ih => simp [toFloat, ih] 

theorem toConfig_asDict (P : Numbers N) (c : CodecConfig N) (ht : P.isInt c.tileSize = true) :
    toConfig P (asDict c) = some c := by
  have hv : ∀ l : List (List N), toListOf (toListOf toFloat) (Json.arr (l.map ofList)) = some l := by
    intro l
    rw [toListOf]
    induction l with
    | nil => rfl
    | cons a l ih => rw [List.map_cons, List.mapM_cons, toListOf_ofList, ih]; rfl
  simp [toConfig, asDict, field, toPca, toListOf_ofList, hv, toInt, ht]

/-- A configuration can be saved exactly if `json` can encode each of its numbers. -/
theorem toJson_defined (P : Numbers N) (c : CodecConfig N) :
    (toJson P c).isSome = true ↔ ∀ n ∈ allNumbers c, P.encodable n = true := by
  unfold toJson dumps
  rw [numbers_asDict]
  split_ifs with h
  · simpa using List.all_eq_true.1 h
  · simp only [Option.isSome_none, Bool.false_eq_true, false_iff]
    exact fun hh => h (List.all_eq_true.2 hh)

/-- Loading the text that was saved gives the configuration, whatever its sizes. -/
theorem fromJson_toJson (P : Numbers N) (L : P.Lawful) (c : CodecConfig N) (ht : P.isInt c.tileSize = true)
    {text : List Char} (h : toJson P c = some text) : fromJson P text = some c := by
  unfold fromJson
  rw [loads_dumps P L (asDict c) ?_ h]
  · exact toConfig_asDict P c ht
  · rw [keys_asDict]
    intro s hs
    unfold PlainKey
    simp only [List.mem_cons, List.not_mem_nil, or_false] at hs
    rcases hs with rfl | rfl | rfl | rfl | rfl | rfl | rfl <;> decide

/-- Different configurations have different texts. -/
theorem toJson_injective (P : Numbers N) (L : P.Lawful) (c d : CodecConfig N) (hc : P.isInt c.tileSize = true)
    (hd : P.isInt d.tileSize = true) {text : List Char} (h1 : toJson P c = some text) (h2 : toJson P d = some text) :
    c = d := by
  have a := fromJson_toJson P L c hc h1
  have b := fromJson_toJson P L d hd h2
  rw [a] at b
  exact Option.some.inj b

/-- A tile size that is not an integer can be saved, but the text cannot be loaded. -/
theorem fromJson_tile (P : Numbers N) (L : P.Lawful) (c : CodecConfig N) (ht : P.isInt c.tileSize = false)
    {text : List Char} (h : toJson P c = some text) : fromJson P text = none := by
  unfold fromJson
  rw [loads_dumps P L (asDict c) ?_ h]
  · simp [toConfig, asDict, field, toInt, ht]
  · rw [keys_asDict]
    intro s hs
    unfold PlainKey
    simp only [List.mem_cons, List.not_mem_nil, or_false] at hs
    rcases hs with rfl | rfl | rfl | rfl | rfl | rfl | rfl <;> decide

/-- The last entry with a key, if there is one. -/
theorem field_spec (m : List (String × Json N)) (key : String) (v : Json N) :
    field m key = some v ↔ ∃ a b, m = a ++ (key, v) :: b ∧ ∀ e ∈ b, e.1 ≠ key := by
  unfold field
  simp only [Option.map_eq_some_iff, List.find?_eq_some_iff_append]
  constructor
  · rintro ⟨⟨k, w⟩, ⟨hk, as, bs, he, hn⟩, rfl⟩
    have hk' : k = key := by simpa using hk
    subst hk'
    refine ⟨bs.reverse, as.reverse, ?_, ?_⟩
    · have := congrArg List.reverse he
      simpa using this
    · intro e h
      have := hn e (by simpa using h)
      simpa using this
  · rintro ⟨a, b, rfl, hb⟩
    refine ⟨(key, v), ⟨by simp, b.reverse, a.reverse, by simp, ?_⟩, rfl⟩
    intro e h
    simpa using hb e (by simpa using h)

/-- A text is loaded only if it is a dictionary with the three fields, and the tile size is the last entry of its name. -/
theorem fromJson_some (P : Numbers N) {text : List Char} {c : CodecConfig N} (h : fromJson P text = some c) :
    ∃ m, loads P text = some (.obj m) ∧ field m "tile_size" = some (.num c.tileSize) ∧ P.isInt c.tileSize = true ∧
      field m "quantization" = some (ofList c.quantization) ∧ ∃ m', field m "pca" = some (.obj m') ∧
      field m' "mean" = some (ofList c.pca.mean) ∧ field m' "std" = some (ofList c.pca.std) ∧
      field m' "eigen_vectors" = some (.arr (c.pca.eigenVectors.map ofList)) ∧
      field m' "eigen_values" = some (ofList c.pca.eigenValues) := by
  have hl : ∀ (v : Json N) l, toListOf toFloat v = some l → v = ofList l := by
    intro v l h
    cases v with
    | num n => cases h
    | obj m => cases h
    | arr vs =>
      simp only [toListOf] at h
      unfold ofList
      congr 1
      induction vs generalizing l with
      | nil => simp at h; subst h; rfl
      | cons a vs ih =>
        simp only [List.mapM_cons, Option.bind_eq_bind, Option.bind_eq_some_iff, Option.pure_def,
          Option.some.injEq] at h
        obtain ⟨x, hx, xs, hxs, rfl⟩ := h
        have := ih xs hxs
        cases a with
        | num n => cases hx; simp [← this]
        | arr _ => cases hx
        | obj _ => cases hx
  have hll : ∀ (v : Json N) l, toListOf (toListOf toFloat) v = some l → v = .arr (l.map ofList) := by
    intro v l h
    cases v with
    | num n => cases h
    | obj m => cases h
    | arr vs =>
      simp only [toListOf] at h
      congr 1
      induction vs generalizing l with
      | nil => simp at h; subst h; rfl
      | cons a vs ih =>
        simp only [List.mapM_cons, Option.bind_eq_bind, Option.bind_eq_some_iff, Option.pure_def,
          Option.some.injEq] at h
        obtain ⟨x, hx, xs, hxs, rfl⟩ := h
        have := ih xs hxs
        rw [List.map_cons, ← this, hl a x hx]
  have hb : ∀ (m : List (String × Json N)) k l, (field m k).bind (toListOf toFloat) = some l →
      field m k = some (ofList l) := by
    intro m k l h
    obtain ⟨v, hv, hv'⟩ := Option.bind_eq_some_iff.1 h
    rw [hv, hl v l hv']
  unfold fromJson at h
  obtain ⟨v, hv, hc⟩ := Option.bind_eq_some_iff.1 h
  cases v with
  | num n => cases hc
  | arr l => cases hc
  | obj m =>
    simp only [toConfig, Option.bind_eq_bind, Option.bind_eq_some_iff, Option.pure_def, Option.some.injEq] at hc
    obtain ⟨pca, ⟨vp, hvp, hp⟩, q, hq, t, ⟨vt, hvt, htt⟩, rfl⟩ := hc
    have hq' := hb m "quantization" q (Option.bind_eq_some_iff.2 hq)
    have ht : vt = .num t ∧ P.isInt t = true := by
      cases vt with
      | num n =>
        simp only [toInt] at htt
        split_ifs at htt with hi
        cases htt
        exact ⟨rfl, hi⟩
      | arr _ => cases htt
      | obj _ => cases htt
    cases vp with
    | num n => cases hp
    | arr l => cases hp
    | obj m' =>
      simp only [toPca, Option.bind_eq_bind, Option.pure_def] at hp
      simp only [Option.bind_eq_some_iff, Option.some.injEq] at hp
      obtain ⟨a, ha, b, hb', e, ⟨ve, hve, he⟩, d, hd, rfl⟩ := hp
      refine ⟨m, hv, ?_, ht.2, hq', m', hvp, hb m' _ a (Option.bind_eq_some_iff.2 ha),
        hb m' _ b (Option.bind_eq_some_iff.2 hb'), ?_, hb m' _ d (Option.bind_eq_some_iff.2 hd)⟩
      · rw [hvt, ht.1]
      · rw [hve, hll ve e he]

/-! ## A case -/

/-- Numbers that are their own text; integers have only digits. -/
def texts : Numbers (List Char) where
  write n := n
  read l := if l ≠ [] ∧ l.all isLiteral then some l else none
  isInt l := l.all Char.isDigit
  encodable l := l ≠ [] ∧ l.all isLiteral

theorem texts_lawful : texts.Lawful := by
  have h : ∀ n, texts.encodable n = true → n ≠ [] ∧ n.all isLiteral = true := fun n hn => by
    simpa only [texts, decide_eq_true_eq] using hn
  exact ⟨fun n hn => (h n hn).1, fun n hn => List.all_eq_true.1 (h n hn).2, fun n hn => if_pos (h n hn)⟩

/-- A configuration with vectors of different lengths, which are not compared. -/
def sample : CodecConfig (List Char) where
  pca := ⟨["0.5".toList, "1e-05".toList], ["1.0".toList], [["NaN".toList], []], []⟩
  quantization := ["0.25".toList]
  tileSize := "8".toList

/-- The text of a configuration, and that it is loaded as it was. -/
theorem sample_case :
    toJson texts sample = some ("{\n  \"pca\": {\n    \"mean\": [\n      0.5,\n      1e-05\n    ],\n" ++
      "    \"std\": [\n      1.0\n    ],\n    \"eigen_vectors\": [\n      [\n        NaN\n      ],\n      []\n    ],\n" ++
      "    \"eigen_values\": []\n  },\n  \"quantization\": [\n    0.25\n  ],\n  \"tile_size\": 8\n}").toList ∧
    (toJson texts sample).bind (fromJson texts) = some sample := by
  refine ⟨by decide +kernel, ?_⟩
  have hs : (toJson texts sample).isSome = true := by decide +kernel
  obtain ⟨text, ht⟩ := Option.isSome_iff_exists.1 hs
  rw [ht]
  exact fromJson_toJson texts texts_lawful sample (by decide +kernel) ht

end Verif.CodecJson
