import Verif.Props.Extract

/-!
C153: exactly which labels abort the extraction of boxes of the laser.
-/

namespace Verif.Extract

/-! ## Specification -/

/-- A field of a message of a box is not set. -/
def Box.Lacks (b : Box) : Prop :=
  b.cx = none ∨ b.cy = none ∨ b.cz = none ∨ b.length = none ∨ b.width = none ∨ b.height = none ∨ b.heading = none

/-- One of the two coordinates in the plane is not set. -/
def Axes.Lacks (a : Axes) : Prop := a.x = none ∨ a.y = none

/-! ## Proofs -/

theorem box3d_lacks (b : Box) (e : Err) : box3d b = .error e ↔ e = .assertion ∧ b.Lacks := by
  obtain ⟨a, b, c, d, f, g, h⟩ := b
  unfold box3d Box.Lacks require
  cases a <;> cases b <;> cases c <;> cases d <;> cases f <;> cases g <;> cases h <;>
    simp [bind, Except.bind, pure, Except.pure, eq_comm]

theorem metadataVector_lacks (l : Label) (get : Metadata → Axes) (e : Err) :
    metadataVector l get = .error e ↔ e = .assertion ∧ ∃ m, l.metadata = some m ∧ (get m).Lacks := by
  unfold metadataVector Axes.Lacks
  cases l.metadata with
  | none => simp [pure, Except.pure]
  | some m =>
    cases hx : (get m).x <;> cases hy : (get m).y <;>
      simp [require, bind, Except.bind, pure, Except.pure, hx, hy, eq_comm]

/-- C153: the extraction fails exactly if there is a box and a field of it, or a coordinate in the plane of the speed or of the
acceleration of given metadata, is not set; the error is always a failed assertion. -/
theorem laserBox_error_iff (f : FrameKey) (l : Label) (e : Err) :
    laserBox f l = .error e ↔ e = .assertion ∧ ∃ b, l.box = some b ∧
      (b.Lacks ∨ ∃ m, l.metadata = some m ∧ (m.speed.Lacks ∨ m.accel.Lacks)) := by
  unfold laserBox
  cases l.box with
  | none => simp [pure_err]
  | some b =>
    have tot : ∀ {α : Type} (x : Res α), (∃ a, x = .ok a) ∨ ∃ e, x = .error e := by
      intro α x; cases x <;> simp
    simp only [bind_err, pure_err, and_false, exists_false, or_false, Option.some.injEq, exists_eq_left', box3d_lacks, metadataVector_lacks]
    constructor
    · rintro (⟨h, h'⟩ | ⟨_, _, ⟨h, m, hm, h'⟩ | ⟨_, _, h, m, hm, h'⟩⟩)
      · exact ⟨h, .inl h'⟩
      · exact ⟨h, .inr ⟨m, hm, .inl h'⟩⟩
      · exact ⟨h, .inr ⟨m, hm, .inr h'⟩⟩
    · rintro ⟨h, h'⟩
      rcases tot (box3d b) with ⟨x, hx⟩ | ⟨e', hx⟩
      · rcases h' with h' | ⟨m, hm, h'⟩
        · exact .inl ⟨h, h'⟩
        · refine .inr ⟨x, hx, ?_⟩
          rcases tot (metadataVector l Metadata.speed) with ⟨v, hv⟩ | ⟨e', hv⟩
          · rcases h' with h' | h'
            · exact .inl ⟨h, m, hm, h'⟩
            · exact .inr ⟨v, hv, h, m, hm, h'⟩
          · exact .inl ⟨h, ((metadataVector_lacks _ _ _).1 hv).2⟩
      · exact .inl ⟨h, ((box3d_lacks _ _).1 hx).2⟩

/-- A label with a speed and no acceleration. -/
theorem laserBox_error_case : laserBox ⟨[], 0⟩ { exampleLabel with metadata := some ⟨⟨some 1, some 2, some 3⟩, {}⟩ } = .error .assertion :=
  (laserBox_error_iff _ _ _).2 ⟨rfl, _, rfl, .inr ⟨_, rfl, .inr (.inl rfl)⟩⟩

end Verif.Extract
