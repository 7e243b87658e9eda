import Mathlib.Data.List.Basic
import Mathlib.Data.List.Nodup
import Mathlib.Data.List.Forall2

/-! Lists, partial maps over them, and association lists. -/

namespace Verif.ListM

theorem mapM_forall₂ {α β : Type} {f : α → Option β} : ∀ {l : List α} {r : List β}, l.mapM f = some r →
    List.Forall₂ (fun a b => f a = some b) l r := by
  intro l
  induction l with
  | nil =>
    intro r h
    simp only [List.mapM_nil, Option.pure_def, Option.some.injEq] at h
    subst h; exact List.Forall₂.nil
  | cons a l ih =>
    intro r h
    rw [List.mapM_cons] at h
    cases hb : f a with
    | none => rw [hb] at h; simp at h
    | some b =>
      cases hr : l.mapM f with
      | none => rw [hb, hr] at h; simp at h
      | some bs =>
        rw [hb, hr] at h
        simp only [Option.pure_def, Option.bind_eq_bind, Option.bind_some, Option.some.injEq] at h
        subst h
        exact List.Forall₂.cons hb (ih hr)

theorem forall₂_mapM {α β : Type} {f : α → Option β} {l : List α} {r : List β}
    (h : List.Forall₂ (fun a b => f a = some b) l r) : l.mapM f = some r := by
  induction h with
  | nil => rfl
  | cons h1 _ ih => simp [List.mapM_cons, h1, ih]

theorem mapM_some_iff {α β : Type} {f : α → Option β} {l : List α} {r : List β} :
    l.mapM f = some r ↔ List.Forall₂ (fun a b => f a = some b) l r := ⟨mapM_forall₂, forall₂_mapM⟩

theorem mapM_isSome {α β : Type} {f : α → Option β} {l : List α} (h : ∀ a ∈ l, ∃ b, f a = some b) : ∃ r, l.mapM f = some r := by
  induction l with
  | nil => exact ⟨[], rfl⟩
  | cons a l ih =>
    obtain ⟨b, hb⟩ := h a (by simp)
    obtain ⟨r, hr⟩ := ih fun x hx => h x (by simp [hx])
    exact ⟨b :: r, by simp [List.mapM_cons, hb, hr]⟩

theorem mem_of_lookup {α β : Type} [BEq α] [LawfulBEq α] {l : List (α × β)} {k : α} {v : β} (h : l.lookup k = some v) : (k, v) ∈ l := by
  induction l with
  | nil => simp at h
  | cons x l ih =>
    obtain ⟨a, b⟩ := x
    rw [List.lookup_cons] at h
    by_cases hk : k == a
    · simp only [hk, Option.some.injEq] at h
      rw [beq_iff_eq] at hk
      subst hk h; simp
    · simp only [hk] at h
      exact List.mem_cons_of_mem _ (ih h)

theorem lookup_of_mem {α β : Type} [BEq α] [LawfulBEq α] {l : List (α × β)} {k : α} {v : β} (hn : (l.map Prod.fst).Nodup)
    (h : (k, v) ∈ l) : l.lookup k = some v := by
  induction l with
  | nil => simp at h
  | cons x l ih =>
    obtain ⟨a, b⟩ := x
    rw [List.map_cons, List.nodup_cons] at hn
    rw [List.lookup_cons]
    rcases List.mem_cons.1 h with h1 | h1
    · cases h1; simp
    · have : k ≠ a := fun e => hn.1 (by rw [← e]; exact List.mem_map.2 ⟨(k, v), h1, rfl⟩)
      rw [beq_false_of_ne this]
      exact ih hn.2 h1

theorem zip_right_inj {α β : Type} {a : List α} {b : List β} (hb : b.Nodup) {x y : α} {v : β} (hx : (x, v) ∈ a.zip b)
    (hy : (y, v) ∈ a.zip b) : x = y := by
  induction a generalizing b with
  | nil => simp at hx
  | cons p a ih =>
    cases b with
    | nil => simp at hx
    | cons q b =>
      rw [List.nodup_cons] at hb
      rw [List.zip_cons_cons] at hx hy
      rcases List.mem_cons.1 hx with h1 | h1 <;> rcases List.mem_cons.1 hy with h2 | h2
      · cases h1; cases h2; rfl
      · cases h1; exact absurd (List.of_mem_zip h2).2 hb.1
      · cases h2; exact absurd (List.of_mem_zip h1).2 hb.1
      · exact ih hb.2 h1 h2

theorem exists_zip_left {α β : Type} {a : List α} {b : List β} (h : a.length = b.length) {x : α} (hx : x ∈ a) : ∃ v, (x, v) ∈ a.zip b := by
  induction a generalizing b with
  | nil => simp at hx
  | cons p a ih =>
    cases b with
    | nil => simp at h
    | cons q b =>
      rcases List.mem_cons.1 hx with h1 | h1
      · exact ⟨q, by simp [h1]⟩
      · obtain ⟨v, hv⟩ := ih (by simpa using h) h1
        exact ⟨v, by simp [hv]⟩

theorem lookup_zip_idxOf {α β : Type} [BEq α] [LawfulBEq α] {ins : List α} {outs : List β} {x : α} (hl : ins.length = outs.length) :
    (ins.zip outs).lookup x = outs[ins.idxOf x]? := by
  induction ins generalizing outs with
  | nil => cases outs with
    | nil => rfl
    | cons _ _ => simp at hl
  | cons a ins ih =>
    cases outs with
    | nil => simp at hl
    | cons b outs =>
      rw [List.zip_cons_cons, List.lookup_cons, List.idxOf_cons]
      by_cases h : x == a
      · have h' : a == x := by rw [beq_iff_eq] at h ⊢; exact h.symm
        simp [h, h']
      · have h' : (a == x) = false := by
          rw [beq_eq_false_iff_ne]; rw [beq_iff_eq] at h; exact fun e => h e.symm
        rw [Bool.not_eq_true] at h
        rw [h, h']
        simpa using ih (by simpa using hl)

theorem forall₂_imp_mem {α β : Type} {R S : α → β → Prop} {l : List α} {r : List β} (h : List.Forall₂ R l r)
    (hi : ∀ a ∈ l, ∀ b ∈ r, R a b → S a b) : List.Forall₂ S l r := by
  induction h with
  | nil => exact List.Forall₂.nil
  | cons h1 _ ih =>
    exact List.Forall₂.cons (hi _ (by simp) _ (by simp) h1) (ih fun a ha b hb => hi a (by simp [ha]) b (by simp [hb]))

theorem forall₂_exists_left {α β : Type} {R : α → β → Prop} {l : List α} {r : List β} (h : List.Forall₂ R l r) {a : α} (ha : a ∈ l) :
    ∃ b ∈ r, R a b := by
  induction h with
  | nil => simp at ha
  | cons h1 _ ih =>
    rcases List.mem_cons.1 ha with rfl | ha
    · exact ⟨_, by simp, h1⟩
    · obtain ⟨b, hb, h2⟩ := ih ha
      exact ⟨b, by simp [hb], h2⟩

theorem forall₂_getElem? {α β : Type} {R : α → β → Prop} {l : List α} {r : List β} (h : List.Forall₂ R l r) {j : ℕ} {a : α} {b : β}
    (ha : l[j]? = some a) (hb : r[j]? = some b) : R a b := by
  induction h generalizing j with
  | nil => simp at ha
  | cons h1 _ ih =>
    cases j with
    | zero => simp at ha hb; subst ha hb; exact h1
    | succ j => exact ih (by simpa using ha) (by simpa using hb)

theorem forall₂_map_eq {α β γ : Type} {f : α → γ} {g : β → γ} {l : List α} {r : List β}
    (h : List.Forall₂ (fun a b => f a = g b) l r) : l.map f = r.map g := by
  induction h with
  | nil => rfl
  | cons h1 _ ih => rw [List.map_cons, List.map_cons, h1, ih]

end Verif.ListM
