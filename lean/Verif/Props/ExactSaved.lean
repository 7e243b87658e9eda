import Verif.Props.Panoptic
import Verif.Props.Kinematics

/-! Exactly when a saved panoptic label comes back, and when the history does not change the average displacement. -/

namespace Verif.Panoptic

open Verif.ListM

/-- C41 exactly: decoding a saved label, whose labels with the stored divisor fit in 32 bits, gives its semantic and instance labels back
exactly when every instance label is below the stored divisor. -/
theorem save_decode_iff {label : List ℕ} {divisor : ℤ} {seq : String} {new : ℕ} {f : Frame} (h : save label divisor seq new = some f)
    (h32 : ∀ x ∈ label, (x / divisor.toNat + 1) * f.divisor.toNat ≤ 2 ^ 32) :
    (∃ o d, decodeMulti [f] true false none = some ([o], d) ∧ decode o.1 d = decode label divisor) ↔
      ∀ x ∈ label, ((x % divisor.toNat : ℕ) : ℤ) < f.divisor := by
  constructor
  · rintro ⟨o, d, hdec, e⟩
    obtain ⟨hd, -, -, -, -, -, -, -, hm⟩ := save_parts h
    have hd0 : 0 < d := by
      by_contra hn
      unfold decode at e
      rw [if_pos (by omega), if_neg (by omega)] at e
      exact absurd e (by simp)
    have hlt : ∀ x ∈ label, ((x % divisor.toNat : ℕ) : ℤ) < d := by
      intro x hx
      unfold decode at e
      rw [if_neg (by omega), if_neg (by omega)] at e
      simp only [Option.some.injEq, Prod.mk.injEq] at e
      have : x % divisor.toNat ∈ o.1.map (· % d.toNat) := by rw [e.2]; exact List.mem_map.2 ⟨x, hx, rfl⟩
      obtain ⟨y, -, ey⟩ := List.mem_map.1 this
      have := Nat.mod_lt y (show d.toNat > 0 by omega)
      omega
    simp only [decodeMulti, remapIf, if_true, Option.bind_eq_bind, Option.bind_eq_some_iff, Option.map_eq_some_iff] at hdec
    obtain ⟨_, ⟨r, hr, rfl⟩, d', hd', out, -, e'⟩ := hdec
    simp only [Option.pure_def, Option.some.injEq, Prod.mk.injEq] at e'
    obtain ⟨-, rfl⟩ := e'
    have hdd : d' = f.divisor := by
      cases r with
      | nil => simpa [outDivisor] using hd'.symm
      | cons a r =>
        obtain ⟨m, hmax⟩ := maxOf_isSome (l := (a :: r).map Prod.snd) (by simp)
        simp only [outDivisor, List.head?_cons, Option.bind_eq_bind, Option.bind_some, hmax, Option.pure_def, Option.some.injEq] at hd'
        obtain ⟨⟨k, w⟩, hk, ew⟩ := List.mem_map.1 (maxOf_spec hmax).1
        have hk' := lookup_of_mem (remap_keys_nodup hr) hk
        obtain ⟨g, hg, _, mm, hm', e1⟩ := (remap_domain hr k.1 k.2).1 ⟨w, hk'⟩
        simp only [List.mem_singleton] at hg
        subst hg
        obtain ⟨_, _, ⟨x, hx, e2⟩, _⟩ := (hm mm).1 hm'
        have hw := (remap_single hr (s := g.seq) (by intro g' hg'; simp only [List.mem_singleton] at hg'; rw [hg']) hk').1
        have := hlt x hx
        simp only at ew hw
        omega
    rw [← hdd]
    exact hlt
  · intro hi
    obtain ⟨o, h1, h2⟩ := save_decode_partial h hi h32
    exact ⟨o, _, h1, h2⟩

end Verif.Panoptic

namespace Verif.Kinematics

noncomputable section

/-- C81 exactly: with a history the reported error is that of the future exactly when this is zero or no step of the history is valid. -/
theorem averageDisplacement_iff {hist sim log : List (ℝ × ℝ × ℝ)} {vh valid : List Bool} (hh : hist.length = vh.length)
    (hs : sim.length = valid.length) (hl : log.length = valid.length) {future : ℝ} (hf : averageDisplacement sim log valid = some future) :
    averageDisplacement (hist ++ sim) (hist ++ log) (vh ++ valid) = some future ↔ future = 0 ∨ ∀ b ∈ vh, b = false := by
  rw [averageDisplacement_partial hh hs hl hf, Option.some.injEq]
  have hn : (valid.filter id).length ≠ 0 := by
    intro hz
    simp [averageDisplacement, hz] at hf
  have hn0 : (0 : ℝ) < (valid.filter id).length := by exact_mod_cast Nat.pos_of_ne_zero hn
  have hh0 : (0 : ℝ) ≤ (vh.filter id).length := Nat.cast_nonneg _
  have e : (∀ b ∈ vh, b = false) ↔ ((vh.filter id).length : ℝ) = 0 := by
    rw [Nat.cast_eq_zero, List.length_eq_zero_iff, List.filter_eq_nil_iff]
    simp
  rw [e]
  constructor
  · intro h
    by_cases hz : future = 0
    · exact .inl hz
    · right
      have := mul_left_cancel₀ hz (h.trans (mul_one future).symm)
      rw [div_eq_one_iff_eq (by positivity)] at this
      linarith
  · rintro (h | h)
    · rw [h, zero_mul]
    · rw [h, zero_add, div_self hn0.ne', mul_one]

end

end Verif.Kinematics
