import Verif.Model.Wire
import Mathlib.Tactic.Linarith
import Mathlib.Tactic.Ring
import Mathlib.Tactic.NormNum

/-!
What is written is read back: varints, fields and messages.
-/

namespace Verif.Wire

theorem readVarint_write (fuel : ℕ) : ∀ (n : ℕ) (r : Bytes), n < 128 ^ (fuel + 1) →
    readVarint (fuel + 1) (writeVarint n ++ r) = some (n, r) := by
  induction fuel with
  | zero => intro n r h; rw [writeVarint]; simp at h; simp [h, readVarint]
  | succ k ih =>
    intro n r h
    rw [writeVarint]
    by_cases hn : n < 128
    · simp [hn, readVarint]
    · have h2 : n / 128 < 128 ^ (k + 1) := by
        rw [Nat.div_lt_iff_lt_mul (by norm_num)]; rw [pow_succ] at h; exact h
      simp only [hn, if_false, List.cons_append]
      rw [readVarint, if_neg (by omega), ih _ _ h2]
      simp only [Option.map_some, Option.some.injEq, Prod.mk.injEq, and_true]
      omega

theorem writeVarint_cons (n : ℕ) : ∃ b l, writeVarint n = b :: l := by
  rw [writeVarint]; split <;> exact ⟨_, _, rfl⟩

theorem writeVarint_byte : ∀ (n : ℕ), ∀ b ∈ writeVarint n, b < 256 := by
  intro n
  induction n using Nat.strong_induction_on with
  | _ n ih =>
    intro b hb
    rw [writeVarint] at hb
    split at hb
    · simp at hb; omega
    · rename_i h
      rcases List.mem_cons.1 hb with rfl | hb
      · omega
      · exact ih _ (by omega) b hb

/-- A value that the format can hold. -/
def Val.Ok : Val → Prop
  | .varint n => n < 2 ^ 64
  | .fixed64 b => b.length = 8
  | .bytes b => b.length < 2 ^ 31 - 16
  | .group => False
  | .fixed32 b => b.length = 4

/-- A field that the format can hold. -/
def Field.Ok (f : Field) : Prop := 1 ≤ f.num ∧ f.num < 2 ^ 29 ∧ f.val.Ok

theorem takeBytes_append (a r : Bytes) (n : ℕ) (h : a.length = n) : takeBytes n (a ++ r) = some (a, r) := by
  subst h
  simp [takeBytes]

theorem takeSized_append (a r : Bytes) (h : a.length < 2 ^ 31 - 16) :
    takeSized (writeVarint a.length ++ (a ++ r)) = some (a, r) := by
  rw [takeSized, readVarint_write 4 _ _ (by norm_num at h ⊢; omega)]
  simp only [Option.bind_some, h, if_true]
  exact takeBytes_append a r _ rfl

theorem scanLoop_succ (fuel depth : ℕ) (c : Option ℕ) (b : ℕ) (l : Bytes) :
    scanLoop (fuel + 1) depth c (b :: l) = (readVarint 5 (b :: l)).bind fun t =>
      let tag := t.1 % 2 ^ 32
      let num := tag / 8
      if num = 0 then none
      else match tag % 8 with
      | 0 => (readVarint 10 t.2).bind fun v =>
          (scanLoop fuel depth c v.2).map fun r => (⟨num, .varint (v.1 % 2 ^ 64)⟩ :: r.1, r.2)
      | 1 => (takeBytes 8 t.2).bind fun v =>
          (scanLoop fuel depth c v.2).map fun r => (⟨num, .fixed64 v.1⟩ :: r.1, r.2)
      | 2 => (takeSized t.2).bind fun v =>
          (scanLoop fuel depth c v.2).map fun r => (⟨num, .bytes v.1⟩ :: r.1, r.2)
      | 3 => match depth with
        | 0 => none
        | d + 1 => (scanLoop fuel d (some num) t.2).bind fun v =>
            (scanLoop fuel depth c v.2).map fun r => (⟨num, .group⟩ :: r.1, r.2)
      | 4 => if c = some num then some ([], t.2) else none
      | 5 => (takeBytes 4 t.2).bind fun v =>
          (scanLoop fuel depth c v.2).map fun r => (⟨num, .fixed32 v.1⟩ :: r.1, r.2)
      | _ => none := by
  cases c <;> rfl

/-- Reading one written field. -/
theorem scanLoop_field (fuel depth : ℕ) (f : Field) (hf : f.Ok) (r : Bytes) :
    scanLoop (fuel + 1) depth none (f.write ++ r) = (scanLoop fuel depth none r).map fun e => (f :: e.1, e.2) := by
  obtain ⟨num, val⟩ := f
  obtain ⟨h1, h2, h3⟩ := hf
  simp only at h1 h2 h3
  have hw : val.wireType < 8 := by cases val <;> simp [Val.wireType]
  have htag : num * 8 + val.wireType < 2 ^ 32 := by norm_num at h2 ⊢; omega
  rw [Field.write, List.append_assoc]
  simp only
  obtain ⟨b, l, hbl⟩ := writeVarint_cons (num * 8 + val.wireType)
  have hread := readVarint_write 4 (num * 8 + val.wireType) (val.write ++ r) (by norm_num at htag ⊢; omega)
  rw [hbl, List.cons_append] at hread ⊢
  rw [scanLoop_succ, hread]
  simp only [Option.bind_some, Nat.mod_eq_of_lt htag]
  have hd : (num * 8 + val.wireType) / 8 = num := by omega
  have hm : (num * 8 + val.wireType) % 8 = val.wireType := by omega
  rw [hd, hm, if_neg (by omega)]
  cases val with
  | varint n =>
    simp only [Val.Ok] at h3
    simp only [Val.wireType, Val.write]
    rw [readVarint_write 9 _ _ (by norm_num at h3 ⊢; omega)]
    simp only [Option.bind_some, Nat.mod_eq_of_lt h3]
  | fixed64 v =>
    simp only [Val.wireType, Val.write]
    rw [takeBytes_append _ _ _ h3]
    simp
  | bytes v =>
    simp only [Val.wireType, Val.write, List.append_assoc]
    rw [takeSized_append _ _ h3]
    simp
  | group => exact absurd h3 (by simp [Val.Ok])
  | fixed32 v =>
    simp only [Val.wireType, Val.write]
    rw [takeBytes_append _ _ _ h3]
    simp

theorem scanLoop_nil (fuel depth : ℕ) : scanLoop fuel depth none [] = some ([], []) := by cases fuel <;> rfl

theorem write_nil : write [] = [] := rfl
theorem write_cons (f : Field) (fs : List Field) : write (f :: fs) = f.write ++ write fs := rfl
theorem write_append (a b : List Field) : write (a ++ b) = write a ++ write b := by simp [write]

theorem scanLoop_write (depth : ℕ) : ∀ (fs : List Field) (fuel : ℕ), (∀ f ∈ fs, f.Ok) → fs.length ≤ fuel →
    scanLoop fuel depth none (write fs) = some (fs, []) := by
  intro fs
  induction fs with
  | nil => intro fuel _ _; exact scanLoop_nil fuel depth
  | cons f fs ih =>
    intro fuel hok hfuel
    obtain ⟨k, rfl⟩ : ∃ k, fuel = k + 1 := ⟨fuel - 1, by simp at hfuel; omega⟩
    rw [write_cons, scanLoop_field _ _ _ (hok f (by simp)), ih k (fun g hg => hok g (by simp [hg])) (by simpa using hfuel)]
    rfl

theorem length_write (fs : List Field) : fs.length ≤ (write fs).length := by
  induction fs with
  | nil => simp
  | cons f fs ih =>
    obtain ⟨b, l, h⟩ := writeVarint_cons (f.num * 8 + f.val.wireType)
    rw [write_cons, Field.write, h]
    simp
    omega

/-- The fields of a written message are the fields that were written. -/
theorem scan_write (depth : ℕ) (fs : List Field) (h : ∀ f ∈ fs, f.Ok) : scan depth (write fs) = some fs := by
  rw [scan, scanLoop_write depth fs _ h (length_write fs)]
  rfl

theorem write_byte (fs : List Field) (h : ∀ f ∈ fs, ∀ b ∈ f.val.write, b < 256) : ∀ b ∈ write fs, b < 256 := by
  intro b hb
  obtain ⟨f, hf, hb⟩ := List.mem_flatMap.1 hb
  rcases List.mem_append.1 hb with hb | hb
  · exact writeVarint_byte _ b hb
  · exact h f hf b hb

/-! ## Reading the fields of a message -/

section read
variable (n k : ℕ) (a b fs : List Field)

theorem varints_append : varints n (a ++ b) = varints n a ++ varints n b := List.filterMap_append
theorem doubles_append : doubles n (a ++ b) = doubles n a ++ doubles n b := List.filterMap_append
theorem floats_append : floats n (a ++ b) = floats n a ++ floats n b := List.filterMap_append
theorem strings_append : strings n (a ++ b) = strings n a ++ strings n b := List.filterMap_append

@[simp] theorem varints_varint (x : Option ℕ) :
    varints n (optional k .varint x) = if k = n then x.toList else [] := by
  cases x <;> simp [optional, varints] <;> split <;> simp_all
@[simp] theorem varints_double (x : Option Bytes) : varints n (optional k .fixed64 x) = [] := by
  cases x <;> simp [optional, varints]
@[simp] theorem varints_float (x : Option Bytes) : varints n (optional k .fixed32 x) = [] := by
  cases x <;> simp [optional, varints]
@[simp] theorem varints_string (x : Option Bytes) : varints n (optional k .bytes x) = [] := by
  cases x <;> simp [optional, varints]
@[simp] theorem varints_sub {α : Type} (w : α → Bytes) (x : Option α) :
    varints n (optional k (fun v => .bytes (w v)) x) = [] := by
  cases x <;> simp [optional, varints]

@[simp] theorem doubles_double (x : Option Bytes) :
    doubles n (optional k .fixed64 x) = if k = n then x.toList else [] := by
  cases x <;> simp [optional, doubles] <;> split <;> simp_all

@[simp] theorem floats_varint (x : Option ℕ) : floats n (optional k .varint x) = [] := by
  cases x <;> simp [optional, floats]
@[simp] theorem floats_float (x : Option Bytes) :
    floats n (optional k .fixed32 x) = if k = n then x.toList else [] := by
  cases x <;> simp [optional, floats] <;> split <;> simp_all
@[simp] theorem floats_string (x : Option Bytes) : floats n (optional k .bytes x) = [] := by
  cases x <;> simp [optional, floats]
@[simp] theorem floats_sub {α : Type} (w : α → Bytes) (x : Option α) :
    floats n (optional k (fun v => .bytes (w v)) x) = [] := by
  cases x <;> simp [optional, floats]

@[simp] theorem strings_varint (x : Option ℕ) : strings n (optional k .varint x) = [] := by
  cases x <;> simp [optional, strings]
@[simp] theorem strings_float (x : Option Bytes) : strings n (optional k .fixed32 x) = [] := by
  cases x <;> simp [optional, strings]
@[simp] theorem strings_string (x : Option Bytes) :
    strings n (optional k .bytes x) = if k = n then x.toList else [] := by
  cases x <;> simp [optional, strings] <;> split <;> simp_all
@[simp] theorem strings_sub {α : Type} (w : α → Bytes) (x : Option α) :
    strings n (optional k (fun v => .bytes (w v)) x) = if k = n then (x.map w).toList else [] := by
  cases x <;> simp [optional, strings] <;> split <;> simp_all

/-- A field without any value of its type and number. -/
theorem strings_nil (h : ∀ f ∈ fs, ∀ p, f.val = .bytes p → f.num ≠ n) : strings n fs = [] := by
  rw [strings, List.filterMap_eq_nil_iff]
  intro f hf
  rcases hv : f.val with _ | _ | p | _ | _ <;> simp
  exact h f hf p hv
theorem floats_nil (h : ∀ f ∈ fs, ∀ p, f.val = .fixed32 p → f.num ≠ n) : floats n fs = [] := by
  rw [floats, List.filterMap_eq_nil_iff]
  intro f hf
  rcases hv : f.val with _ | _ | p | _ | p <;> simp
  exact h f hf p hv
theorem varints_nil (h : ∀ f ∈ fs, ∀ p, f.val = .varint p → f.num ≠ n) : varints n fs = [] := by
  rw [varints, List.filterMap_eq_nil_iff]
  intro f hf
  rcases hv : f.val with p | _ | p | _ | p <;> simp
  exact h f hf p hv

end read

@[simp] theorem getLast?_toList {α : Type} (x : Option α) : x.toList.getLast? = x := by cases x <;> rfl

theorem Box.read_fields (b : Box) : Box.read b.fields = b := by
  obtain ⟨a1, a2, a3, a4, a5, a6, a7⟩ := b
  simp [Box.read, Box.fields, doubles_append]

/-! ## Messages that the format can hold -/

/-- The doubles of a box have eight bytes. -/
def Box.Ok (b : Box) : Prop := ∀ f ∈ b.fields, f.Ok

/-- Bytes that a message type accepts at every depth that these files reach. -/
def Sound (s : Schema) (p : Bytes) : Prop := ∀ d, 90 ≤ d → accepts d s p = true

/-- What is inside a message by its number. -/
def Schema.sub : Schema → ℕ → Schema
  | .message f, n => f n
  | _, _ => .plain

/-- The other fields of a message: they can be written and hold nothing that the message type refuses. -/
def RestOk (s : Schema) (other : Field → Bool) (fs : List Field) : Prop :=
  ∀ f ∈ fs, f.Ok ∧ other f = true ∧ ∀ p, f.val = .bytes p → Sound (s.sub f.num) p

/-- Short enough for a file. -/
def Fits (fs : List Field) : Prop := (write fs).length < 2 ^ 31 - 16

def Label.Ok (l : Label) : Prop :=
  (∀ b, l.box = some b → b.Ok ∧ Fits b.fields) ∧ (∀ t, l.type = some t → t ≤ 4) ∧ RestOk labelSchema Label.other l.rest

def Object.Ok (o : Object) : Prop :=
  (∀ l, o.label = some l → l.Ok ∧ Fits l.fields) ∧ (∀ s, o.score = some s → s.length = 4) ∧
    (∀ s, o.context = some s → s.length < 2 ^ 31 - 16) ∧ (∀ t, o.timestamp = some t → t < 2 ^ 64) ∧
    (∀ c, o.camera = some c → c ≤ 8) ∧ RestOk objectSchema Object.other o.rest

def Objects.Ok (os : Objects) : Prop :=
  (∀ o ∈ os.objects, o.Ok ∧ Fits o.fields) ∧ RestOk objectsSchema Objects.other os.rest

def Submission.Ok (s : Submission) : Prop :=
  (∀ os, s.results = some os → os.Ok ∧ Fits os.fields) ∧ RestOk submissionSchema Submission.other s.rest

/-- A written message is accepted if its fields can be written and hold messages that are accepted. -/
theorem sound_write (sub : ℕ → Schema) (fs : List Field) (hok : ∀ f ∈ fs, f.Ok) (d : ℕ)
    (h : ∀ f ∈ fs, ∀ p, f.val = .bytes p → accepts (d - 1) (sub f.num) p = true) :
    accepts d (.message sub) (write fs) = true := by
  rw [accepts, scan_write d fs hok]
  simp only [List.all_eq_true]
  intro f hf
  rcases hv : f.val with _ | _ | p | _ | _ <;> simp only
  exact h f hf p hv

theorem mem_optional {α : Type} {n : ℕ} {mk : α → Val} {x : Option α} {f : Field} (h : f ∈ optional n mk x) :
    ∃ v, x = some v ∧ f = ⟨n, mk v⟩ := by
  cases x with
  | none => simp [optional] at h
  | some v => exact ⟨v, rfl, by simpa [optional] using h⟩

theorem Box.field_double (b : Box) (f : Field) (hf : f ∈ b.fields) : ∀ p, f.val ≠ .bytes p := by
  intro p hp
  simp only [Box.fields, List.mem_append, or_assoc] at hf
  rcases hf with h | h | h | h | h | h | h <;>
  · obtain ⟨v, _, rfl⟩ := mem_optional h
    exact absurd hp (by simp)

theorem Box.accepted (b : Box) (hb : b.Ok) (d : ℕ) : accepts d flatSchema (write b.fields) = true :=
  sound_write _ _ hb d fun f hf p hp => absurd hp (b.field_double f hf p)

theorem Label.fields_ok (l : Label) (h : l.Ok) : ∀ f ∈ l.fields, f.Ok := by
  intro f hf
  rcases List.mem_append.1 hf with hf | hf
  · rcases List.mem_append.1 hf with hf | hf
    · obtain ⟨b, hb, rfl⟩ := mem_optional hf
      exact ⟨by norm_num, by norm_num, (h.1 b hb).2⟩
    · obtain ⟨t, ht, rfl⟩ := mem_optional hf
      exact ⟨by norm_num, by norm_num, lt_of_le_of_lt (h.2.1 t ht) (by norm_num)⟩
  · exact (h.2.2 f hf).1

theorem Label.accepted (l : Label) (h : l.Ok) (d : ℕ) (hd : 91 ≤ d) : accepts d labelSchema (write l.fields) = true := by
  refine sound_write _ _ (l.fields_ok h) d fun f hf p hp => ?_
  rcases List.mem_append.1 hf with hf | hf
  · rcases List.mem_append.1 hf with hf | hf
    · obtain ⟨b, hb, rfl⟩ := mem_optional hf
      obtain rfl : write b.fields = p := by simpa using hp
      simpa using b.accepted (h.1 b hb).1 (d - 1)
    · obtain ⟨t, ht, rfl⟩ := mem_optional hf
      exact absurd hp (by simp)
  · exact (h.2.2 f hf).2.2 p hp (d - 1) (by omega)

theorem Label.read_fields (l : Label) (h : l.Ok) : Label.read l.fields = l := by
  have h1 : strings 1 l.rest = [] := strings_nil 1 _ fun f hf p hp => by
    have := (h.2.2 f hf).2.1
    simpa [Label.other, hp] using this
  have h2 : (varints 3 l.rest).filter (· ≤ 4) = [] := by
    rw [List.filter_eq_nil_iff]
    intro v hv
    obtain ⟨f, hf, hv⟩ := List.mem_filterMap.1 hv
    have := (h.2.2 f hf).2.1
    rcases hp : f.val with p | _ | _ | _ | _ <;> simp [hp] at hv
    obtain ⟨hn, rfl⟩ := hv
    simp [Label.other, hp, hn] at this
    simp; omega
  have h3 : l.rest.filter Label.other = l.rest := List.filter_eq_self.2 fun f hf => (h.2.2 f hf).2.1
  obtain ⟨box, type, rest⟩ := l
  simp only at h1 h2 h3
  have e1 : merged 1 (Label.fields ⟨box, type, rest⟩) = box.map Box.fields := by
    rw [merged]
    cases box with
    | none => simp [Label.fields, strings_append, h1]
    | some b => simp [Label.fields, strings_append, h1, scan_write nesting b.fields (h.1 b rfl).1]
  have e2 : ((varints 3 (Label.fields ⟨box, type, rest⟩)).filter (· ≤ 4)).getLast? = type := by
    cases type with
    | none => simp [Label.fields, varints_append, h2]
    | some t => simp [Label.fields, varints_append, List.filter_append, h2, h.2.1 t rfl]
  have e3 : (Label.fields ⟨box, type, rest⟩).filter Label.other = rest := by
    cases type with
    | none => cases box <;> simp [Label.fields, optional, h3, Label.other]
    | some t =>
      have := h.2.1 t rfl
      cases box <;> simp [Label.fields, optional, h3, Label.other, this]
  rw [Label.read, e1, e2, e3]
  cases box <;> simp [Box.read_fields]

theorem Object.fields_ok (o : Object) (h : o.Ok) : ∀ f ∈ o.fields, f.Ok := by
  intro f hf
  simp only [Object.fields, List.mem_append, or_assoc] at hf
  obtain ⟨h1, h2, h3, h4, h5, h6⟩ := h
  rcases hf with hf | hf | hf | hf | hf | hf
  · obtain ⟨v, hv, rfl⟩ := mem_optional hf
    exact ⟨by norm_num, by norm_num, (h1 v hv).2⟩
  · obtain ⟨v, hv, rfl⟩ := mem_optional hf
    exact ⟨by norm_num, by norm_num, h2 v hv⟩
  · obtain ⟨v, hv, rfl⟩ := mem_optional hf
    exact ⟨by norm_num, by norm_num, h3 v hv⟩
  · obtain ⟨v, hv, rfl⟩ := mem_optional hf
    exact ⟨by norm_num, by norm_num, h4 v hv⟩
  · obtain ⟨v, hv, rfl⟩ := mem_optional hf
    exact ⟨by norm_num, by norm_num, lt_of_le_of_lt (h5 v hv) (by norm_num)⟩
  · exact (h6 f hf).1

theorem Object.accepted (o : Object) (h : o.Ok) (d : ℕ) (hd : 92 ≤ d) :
    accepts d objectSchema (write o.fields) = true := by
  refine sound_write _ _ (o.fields_ok h) d fun f hf p hp => ?_
  simp only [Object.fields, List.mem_append, or_assoc] at hf
  obtain ⟨h1, h2, h3, h4, h5, h6⟩ := h
  rcases hf with hf | hf | hf | hf | hf | hf
  · obtain ⟨v, hv, rfl⟩ := mem_optional hf
    obtain rfl : write v.fields = p := by simpa using hp
    simpa using v.accepted (h1 v hv).1 (d - 1) (by omega)
  · obtain ⟨v, hv, rfl⟩ := mem_optional hf
    exact absurd hp (by simp)
  · obtain ⟨v, hv, rfl⟩ := mem_optional hf
    simp [accepts]
  · obtain ⟨v, hv, rfl⟩ := mem_optional hf
    exact absurd hp (by simp)
  · obtain ⟨v, hv, rfl⟩ := mem_optional hf
    exact absurd hp (by simp)
  · exact (h6 f hf).2.2 p hp (d - 1) (by omega)

theorem Object.read_fields (o : Object) (h : o.Ok) : Object.read o.fields = o := by
  obtain ⟨label, score, context, timestamp, camera, rest⟩ := o
  obtain ⟨h1, h2, h3, h4, h5, h6⟩ := h
  simp only at h1 h2 h3 h4 h5 h6
  have r1 : strings 1 rest = [] := strings_nil 1 _ fun f hf p hp => by
    have := (h6 f hf).2.1
    simp [Object.other, hp] at this
    exact this.1
  have r4 : strings 4 rest = [] := strings_nil 4 _ fun f hf p hp => by
    have := (h6 f hf).2.1
    simp [Object.other, hp] at this
    exact this.2
  have r2 : floats 2 rest = [] := floats_nil 2 _ fun f hf p hp => by
    have := (h6 f hf).2.1
    simpa [Object.other, hp] using this
  have r5 : varints 5 rest = [] := varints_nil 5 _ fun f hf p hp => by
    have := (h6 f hf).2.1
    simp [Object.other, hp] at this
    exact this.1
  have r6 : (varints 6 rest).filter (· ≤ 8) = [] := by
    rw [List.filter_eq_nil_iff]
    intro v hv
    obtain ⟨f, hf, hv⟩ := List.mem_filterMap.1 hv
    have := (h6 f hf).2.1
    rcases hp : f.val with p | _ | _ | _ | _ <;> simp [hp] at hv
    obtain ⟨hn, rfl⟩ := hv
    simp [Object.other, hp, hn] at this
    simp; omega
  have r7 : rest.filter Object.other = rest := List.filter_eq_self.2 fun f hf => (h6 f hf).2.1
  have e1 : merged 1 (Object.fields ⟨label, score, context, timestamp, camera, rest⟩) = label.map Label.fields := by
    rw [merged]
    cases label with
    | none => simp [Object.fields, strings_append, r1]
    | some l => simp [Object.fields, strings_append, r1, scan_write nesting l.fields (l.fields_ok (h1 l rfl).1)]
  have e6 : ((varints 6 (Object.fields ⟨label, score, context, timestamp, camera, rest⟩)).filter (· ≤ 8)).getLast? =
      camera := by
    cases camera with
    | none => simp [Object.fields, varints_append, r6]
    | some t => simp [Object.fields, varints_append, List.filter_append, r6, h5 t rfl]
  have e7 : (Object.fields ⟨label, score, context, timestamp, camera, rest⟩).filter Object.other = rest := by
    cases camera with
    | none => cases label <;> cases score <;> cases context <;> cases timestamp <;>
        simp [Object.fields, optional, r7, Object.other]
    | some t =>
      have := h5 t rfl
      cases label <;> cases score <;> cases context <;> cases timestamp <;>
        simp [Object.fields, optional, r7, Object.other, this]
  rw [Object.read, e1, e6, e7]
  have e2 : (label.map Label.fields).map Label.read = label := by
    cases label with
    | none => rfl
    | some l => simp [l.read_fields (h1 l rfl).1]
  rw [e2]
  simp [Object.fields, floats_append, strings_append, varints_append, r2, r4, r5]

theorem Objects.fields_ok (os : Objects) (h : os.Ok) : ∀ f ∈ os.fields, f.Ok := by
  intro f hf
  rcases List.mem_append.1 hf with hf | hf
  · obtain ⟨o, ho, rfl⟩ := List.mem_map.1 hf
    exact ⟨by norm_num, by norm_num, (h.1 o ho).2⟩
  · exact (h.2 f hf).1

theorem Objects.accepted (os : Objects) (h : os.Ok) (d : ℕ) (hd : 93 ≤ d) :
    accepts d objectsSchema (write os.fields) = true := by
  refine sound_write _ _ (os.fields_ok h) d fun f hf p hp => ?_
  rcases List.mem_append.1 hf with hf | hf
  · obtain ⟨o, ho, rfl⟩ := List.mem_map.1 hf
    obtain rfl : write o.fields = p := by simpa using hp
    simpa using o.accepted (h.1 o ho).1 (d - 1) (by omega)
  · exact (h.2 f hf).2.2 p hp (d - 1) (by omega)

theorem strings_map_same {α : Type} (n : ℕ) (w : α → Bytes) (l : List α) :
    strings n (l.map fun o => (⟨n, .bytes (w o)⟩ : Field)) = l.map w := by
  induction l with
  | nil => rfl
  | cons a l ih => simp only [strings, List.map_cons, List.filterMap_cons, if_true] at ih ⊢; rw [ih]

theorem Objects.read_fields (os : Objects) (h : os.Ok) : Objects.read os.fields = os := by
  obtain ⟨objects, rest⟩ := os
  have r1 : strings 1 rest = [] := strings_nil 1 _ fun f hf p hp => by
    have := (h.2 f hf).2.1
    simpa [Objects.other, hp] using this
  have r2 : rest.filter Objects.other = rest := List.filter_eq_self.2 fun f hf => (h.2 f hf).2.1
  have e1 : strings 1 (Objects.fields ⟨objects, rest⟩) = objects.map fun o => write o.fields := by
    simp only [Objects.fields]
    rw [strings_append, r1, strings_map_same 1 (fun o : Object => write o.fields)]
    simp
  have e2 : (Objects.fields ⟨objects, rest⟩).filter Objects.other = rest := by
    simp only [Objects.fields, List.filter_append, r2]
    rw [List.filter_eq_nil_iff.2]
    · rfl
    · intro f hf
      obtain ⟨o, _, rfl⟩ := List.mem_map.1 hf
      simp [Objects.other]
  rw [Objects.read, e1, e2, List.map_map]
  congr 1
  conv_rhs => rw [← List.map_id objects]
  refine List.map_congr_left fun o ho => ?_
  have ho' := h.1 o ho
  simp [scan_write nesting o.fields (o.fields_ok ho'.1), o.read_fields ho'.1]

/-- A file of objects reads back as what was written. -/
theorem parse_writeObjects (os : Objects) (h : os.Ok) : parseObjects (writeObjects os) = some os := by
  rw [parseObjects, writeObjects, if_pos (os.accepted h nesting (by norm_num [nesting])),
    scan_write nesting _ (os.fields_ok h), Option.map_some, os.read_fields h]

theorem Submission.fields_ok (s : Submission) (h : s.Ok) : ∀ f ∈ s.fields, f.Ok := by
  intro f hf
  rcases List.mem_append.1 hf with hf | hf
  · exact (h.2 f hf).1
  · obtain ⟨os, hos, rfl⟩ := mem_optional hf
    exact ⟨by norm_num, by norm_num, (h.1 os hos).2⟩

theorem Submission.accepted (s : Submission) (h : s.Ok) (d : ℕ) (hd : 94 ≤ d) :
    accepts d submissionSchema (write s.fields) = true := by
  refine sound_write _ _ (s.fields_ok h) d fun f hf p hp => ?_
  rcases List.mem_append.1 hf with hf | hf
  · exact (h.2 f hf).2.2 p hp (d - 1) (by omega)
  · obtain ⟨os, hos, rfl⟩ := mem_optional hf
    obtain rfl : write os.fields = p := by simpa [writeObjects] using hp
    simpa using os.accepted (h.1 os hos).1 (d - 1) (by omega)

theorem Submission.read_fields (s : Submission) (h : s.Ok) : Submission.read s.fields = s := by
  obtain ⟨results, rest⟩ := s
  have r1 : strings 11 rest = [] := strings_nil 11 _ fun f hf p hp => by
    have := (h.2 f hf).2.1
    simpa [Submission.other, hp] using this
  have r2 : rest.filter Submission.other = rest := List.filter_eq_self.2 fun f hf => (h.2 f hf).2.1
  have e1 : merged 11 (Submission.fields ⟨results, rest⟩) = results.map Objects.fields := by
    rw [merged]
    cases results with
    | none => simp [Submission.fields, strings_append, r1]
    | some os => simp [Submission.fields, strings_append, r1, writeObjects,
        scan_write nesting os.fields (os.fields_ok (h.1 os rfl).1)]
  have e2 : (Submission.fields ⟨results, rest⟩).filter Submission.other = rest := by
    cases results <;> simp [Submission.fields, optional, r2, Submission.other]
  rw [Submission.read, e1, e2]
  cases results with
  | none => rfl
  | some os => simp [os.read_fields (h.1 os rfl).1]

/-- A submission reads back as what was written. -/
theorem parse_writeSubmission (s : Submission) (h : s.Ok) : parseSubmission (writeSubmission s) = some s := by
  rw [parseSubmission, writeSubmission, if_pos (s.accepted h nesting (by norm_num [nesting])),
    scan_write nesting _ (s.fields_ok h), Option.map_some, s.read_fields h]

end Verif.Wire
