import Verif.Props.Component
import Verif.Model.Shipped

/-!
C06, C07, C66 for the component classes shipped with the package.
-/

namespace Verif.Component.Shipped

open Verif.Component

/-- The columns of all shipped components. -/
def columns : List Column := all.flatMap (fun A => leafColumns A.name A.kind A.fields)

theorem shipped_distinct : ∀ A ∈ all, Distinct A.fields := by decide +kernel

theorem shipped_component : ∀ A ∈ all, A.kind = .component := by decide +kernel

theorem shipped_names : (all.map (·.name)).Nodup := by decide +kernel

/-- No column of a shipped component can be mistaken for a field of a shipped component. -/
theorem shipped_unmistakable : ∀ A ∈ all, ∀ q ∈ columns, Unmistakable A.name A.kind A.fields q := by decide +kernel

/-- C66: an object of a shipped component class is read back from any row that holds its columns, whatever other
columns of shipped components the row holds and in whatever order. -/
theorem fromDict_merged {ω : Type} (A : Cls Arrow) (hA : A ∈ all) (o : Obj ω) (h : Fits A.kind A.fields o)
    (row : Dict (Option ω)) (hn : (row.map (·.1)).Nodup) (hcols : ∀ q ∈ row.map (·.1), q ∈ columns)
    (hv : ∀ d, toFlattenDict A o = some d → ∀ e ∈ d, e ∈ row) :
    fromDict A row = some (fill A.fields o) := by
  refine unflatten_of_agrees A.name A.kind A.fields o row h hn ?_ (fun q hq => shipped_unmistakable A hA q (hcols q hq))
  intro e he
  exact mem_get? row e.1 e.2 hn (hv _ (toFlattenDict_spec A o (shipped_distinct A hA) h) e he)

/-- C06: every object of a shipped component class without missing nested objects is read back unchanged. -/
theorem fromDict_toFlattenDict {ω : Type} (A : Cls Arrow) (hA : A ∈ all) (o : Obj ω) (h : Fits A.kind A.fields o)
    (hf : Full o) : ∃ d, toFlattenDict A o = some d ∧ fromDict A d = some o := by
  refine roundTrip_full A o (shipped_distinct A hA) h hf (fun q hq => shipped_unmistakable A hA q ?_)
  exact List.mem_flatMap.mpr ⟨A, hA, hq⟩

/-- C07: different shipped components share only columns of their keys, all of which are named `key`. -/
theorem shared_key (A B : Cls Arrow) (hA : A ∈ all) (hB : B ∈ all) (hne : A ≠ B) (q : Column)
    (hqA : q ∈ (schema A).map (·.1)) (hqB : q ∈ (schema B).map (·.1)) : ∃ r, q = .field "key" false :: r := by
  have hname : A.name ≠ B.name := fun e => hne (List.inj_on_of_nodup_map shipped_names hA hB e)
  obtain ⟨n, rep, r, rfl, hk, _⟩ := shared_columns A B (shipped_component A hA) (shipped_component B hB) hname
    (shipped_distinct A hA) (shipped_distinct B hB) q hqA hqB
  have h1 : ∀ A ∈ all, ∀ n ∈ keyFields A.fields, n = "key" := by decide +kernel
  have h2 : ∀ A ∈ all, ∀ q ∈ leafColumns A.name A.kind A.fields, q.head? ≠ some (.field "key" true) := by
    decide +kernel
  have hn := h1 A hA n hk
  rw [schema_spec A (shipped_distinct A hA)] at hqA
  have := h2 A hA _ hqA
  cases rep
  · exact ⟨r, by rw [hn]⟩
  · simp [hn] at this

/-- C06 fails for shipped classes: a `LiDARBoxComponent` without speed, acceleration and difficulty level is read back
with objects whose fields are all `None`. -/
theorem roundTrip_none_violated :
    let key : Obj Nat := .leaf (some 1) (.leaf (some 2) (.leaf (some 3) .nil))
    let vec : Obj Nat := .leaf (some 4) (.leaf (some 5) (.leaf (some 6) .nil))
    let nones : Obj Nat := .leaf none (.leaf none (.leaf none .nil))
    let o : Obj Nat := .obj key (.obj (.obj vec (.obj vec (.leaf (some 7) .nil))) (.leaf (some 8) (.leaf (some 9)
      (.leaf (some 10) (.none (.none (.none .nil)))))))
    let o' : Obj Nat := .obj key (.obj (.obj vec (.obj vec (.leaf (some 7) .nil))) (.leaf (some 8) (.leaf (some 9)
      (.leaf (some 10) (.obj nones (.obj nones (.obj (.leaf none (.leaf none .nil)) .nil)))))))
    liDARBox ∈ all ∧ (toFlattenDict liDARBox o).bind (fromDict liDARBox) = some o' ∧ o ≠ o' := by
  decide +kernel

/-- The hypotheses of `fromDict_merged` hold for a row merged from a vehicle pose and statistics of the same frame. -/
example : ∃ (o : Obj Nat) (row : Dict (Option Nat)), Fits vehiclePose.kind vehiclePose.fields o ∧
    (row.map (·.1)).Nodup ∧ (∀ q ∈ row.map (·.1), q ∈ columns) ∧
    (∀ d, toFlattenDict vehiclePose o = some d → ∀ e ∈ d, e ∈ row) ∧ row.length = 10 ∧
    fromDict vehiclePose row = some o := by
  let o : Obj Nat := .obj (.leaf (some 1) (.leaf (some 2) .nil)) (.obj (.leaf (some 3) .nil) .nil)
  let s : Obj Nat := .obj (.leaf (some 1) (.leaf (some 2) .nil)) (.leaf (some 4) (.leaf (some 5) (.leaf (some 6)
    (.none (.none .nil)))))
  refine ⟨o, ((toFlattenDict stats s).getD []).reverse ++ ((toFlattenDict vehiclePose o).getD []).drop 2,
    ⟨trivial, trivial, trivial⟩, ?_, ?_, ?_, ?_, ?_⟩
  · decide +kernel
  · decide +kernel
  · intro d hd
    have : toFlattenDict vehiclePose o = some ((toFlattenDict vehiclePose o).getD []) := by decide +kernel
    rw [this] at hd
    cases hd
    decide +kernel
  · decide +kernel
  · decide +kernel

end Verif.Component.Shipped
