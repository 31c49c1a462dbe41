import Verif.Spec.MetisPartition
import Mathlib.Data.List.Perm.Basic
import Mathlib.Data.List.Perm.Subperm
/-
Lemmas on partitions with METIS.
-/
namespace Verif.MetisPartition

open Spec Partition

variable {α : Type}

/-- Offsets of the elements. -/
def offsets (corners : α → List Nat) : Nat → List α → List Nat
  | _, [] => []
  | v, e :: es => (v + (corners e).length) :: offsets corners (v + (corners e).length) es

theorem gather_eq (corners : α → List Nat) : ∀ (es : List α) (v : Nat) (cells nodes : List Nat) (seeds : List α),
    (gather corners es (v, cells, nodes, seeds)).2 =
      (cells ++ offsets corners v es, nodes ++ es.flatMap corners, seeds ++ es) := by
  intro es
  induction es with
  | nil => intro v cells nodes seeds; simp [gather, offsets]
  | cons e es ih =>
    intro v cells nodes seeds
    rw [gather, ih]
    simp [offsets]

theorem length_offsets (corners : α → List Nat) : ∀ (es : List α) (v : Nat), (offsets corners v es).length = es.length := by
  intro es
  induction es with
  | nil => intro v; rfl
  | cons e es ih => intro v; simp [offsets, ih]

theorem mesh_eq (corners : α → List Nat) (p : Nat) (es : List α) : mesh corners p es =
    (⟨es.length, (es.flatMap corners).length, 0 :: offsets corners 0 es, es.flatMap corners, 2, p⟩, es) := by
  unfold mesh
  simp only [gather_eq]
  simp [length_offsets]

theorem offsets_get (corners : α → List Nat) : ∀ (es : List α) (v i : Nat), i ≤ es.length →
    (v :: offsets corners v es).getD i 0 = v + ((es.take i).flatMap corners).length := by
  intro es
  induction es with
  | nil =>
    intro v i hi
    have : i = 0 := by simpa using hi
    subst this
    simp
  | cons e es ih =>
    intro v i hi
    cases i with
    | zero => simp
    | succ i =>
      simp only [offsets, List.getD_cons_succ, List.take_succ_cons, List.flatMap_cons, List.length_append]
      rw [ih _ i (by simpa using hi)]
      omega

theorem assign_eq : ∀ (q : List (α × Nat)) (ps : List (List α)), (∀ x ∈ q, x.2 < ps.length) →
    ∃ rs, assign q ps = .ok rs ∧ rs.length = ps.length ∧
      ∀ k < ps.length, rs[k]? = some (ps.getD k [] ++ (q.filter fun x => x.2 = k).map Prod.fst) := by
  intro q
  induction q with
  | nil =>
    intro ps _
    refine ⟨ps, rfl, rfl, fun k hk => ?_⟩
    simp [List.getElem?_eq_getElem hk]
  | cons x q ih =>
    intro ps h
    have hx : x.2 < ps.length := h x (by simp)
    obtain ⟨rs, h1, h2, h3⟩ := ih (ps.set x.2 (ps[x.2] ++ [x.1])) (by
      intro y hy
      rw [List.length_set]
      exact h y (List.mem_cons_of_mem _ hy))
    refine ⟨rs, ?_, by simpa using h2, fun k hk => ?_⟩
    · obtain ⟨e, j⟩ := x
      simp only [assign, List.getElem?_eq_getElem hx]
      exact h1
    · rw [h3 k (by simpa using hk)]
      congr 1
      by_cases hxk : x.2 = k
      · subst hxk
        simp [hx]
      · simp [hxk]

theorem perm_filters (n : Nat) : ∀ (q : List (α × Nat)), (∀ x ∈ q, x.2 < n) →
    (((List.range n).map fun k => (q.filter fun x => x.2 = k).map Prod.fst).flatten).Perm (q.map Prod.fst) := by
  intro q
  induction q with
  | nil =>
    intro _
    simp
  | cons x q ih =>
    intro h
    have hx : x.2 < n := h x (by simp)
    refine List.Perm.trans ?_ ((ih fun y hy => h y (List.mem_cons_of_mem _ hy)).cons x.1)
    have hn : n = x.2 + (n - x.2 - 1 + 1) := by omega
    rw [hn, List.range_add, List.range_succ_eq_map]
    simp only [List.map_append, List.flatten_append, List.map_map, List.map_cons, List.flatten_cons]
    have e1 : (List.range x.2).map (fun k => ((x :: q).filter fun y => y.2 = k).map Prod.fst) =
        (List.range x.2).map (fun k => (q.filter fun y => y.2 = k).map Prod.fst) := by
      refine List.map_congr_left fun k hk => ?_
      have : x.2 ≠ k := by
        have := List.mem_range.mp hk
        omega
      simp [this]
    have e2 : (List.range (n - x.2 - 1)).map ((fun k => ((x :: q).filter fun y => y.2 = k).map Prod.fst) ∘ (x.2 + ·) ∘ Nat.succ) =
        (List.range (n - x.2 - 1)).map ((fun k => (q.filter fun y => y.2 = k).map Prod.fst) ∘ (x.2 + ·) ∘ Nat.succ) := by
      refine List.map_congr_left fun k _ => ?_
      have : x.2 ≠ x.2 + (k + 1) := by omega
      simp
    rw [e1, e2]
    simp only [Nat.add_zero, List.filter_cons, decide_true, if_true, List.map_cons, List.cons_append]
    exact List.perm_middle

end Verif.MetisPartition
