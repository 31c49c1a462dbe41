import Verif.Proofs.LocalFunctionSpace
/-
C13, C55: local function spaces.
-/
namespace Verif
open Lfs PSums
open LeafOrdering (Key)

/-- **C13 (sizes and local indices).** After `bind`, whatever the container held before and in both modes:
* the size of every node is the number of DOFs of the leaves below it, and for an inner node the sum of
  the sizes of its children;
* the children of a node lie one after the other, the first one starting where the node starts;
* the local indices `localIndex(0..n-1)` of different leaves are disjoint;
* every index below the size of the root is a local index of some leaf. -/
theorem C13_local_indices (fast : Bool) (s : Space) (a a' : List Dof) (b : Bound)
    (h : bindTo fast s a = some (b, a')) :
    (∀ p t, s.at? p = some t → ∃ c, b.at? p = some c ∧ c.n = t.dofs fast) ∧
    (∀ p o n k bc, b.at? p = some (.node o n k bc) →
      n = ((List.range k).map fun i => (bc i).n).sum ∧
      (0 < k → (bc 0).offset = o) ∧
      (∀ i, i + 1 < k → (bc (i + 1)).offset = (bc i).offset + (bc i).n)) ∧
    (∀ p q c d i j, b.at? p = some c → b.at? q = some d → (∃ o n, c = .leaf o n) → (∃ o n, d = .leaf o n) →
      i < c.n → j < d.n → c.localIndex i = d.localIndex j → p = q ∧ i = j) ∧
    (∀ i, i < b.n → ∃ p c j, b.at? p = some c ∧ (∃ o n, c = .leaf o n) ∧ j < c.n ∧ c.localIndex j = i) := by
  obtain ⟨rfl⟩ : b = (computeSizes fast s 0).1 := by
    unfold bindTo at h
    cases hf : fillIndices fast s (computeSizes fast s 0).1 a with
    | none => simp [hf] at h
    | some x => simp [hf] at h; exact h.1.symm
  refine ⟨?_, ?_, ?_, ?_⟩
  · intro p t ht
    obtain ⟨o, e, -, -⟩ := at_computeSizes fast p s 0 t ht
    exact ⟨_, e, (computeSizes_offset fast t o).2⟩
  · intro p o n k bc hb
    obtain ⟨child, -, hn, hc⟩ := node_children fast s 0 p o n k bc hb
    have hoff : ∀ i, i < k → (bc i).offset = o + psum (fun i => (child i).dofs fast) i ∧
        (bc i).n = (child i).dofs fast := by
      intro i hi; rw [hc i hi]; exact computeSizes_offset fast _ _
    refine ⟨?_, ?_, ?_⟩
    · rw [hn]
      simp only [Space.dofs, range_sum]
      exact psum_congr fun i hi => (hoff i hi).2.symm
    · intro hk; rw [(hoff 0 hk).1]; simp
    · intro i hi
      rw [(hoff (i + 1) hi).1, (hoff i (by omega)).1, (hoff i (by omega)).2, psum_succ]
      omega
  · intro p q c d i j hp hq hc hd hi hj e
    obtain ⟨o1, n1, rfl⟩ := hc
    obtain ⟨o2, n2, rfl⟩ := hd
    simp only [Bound.localIndex, Bound.offset, Bound.n] at *
    by_cases hpq : p = q
    · subst hpq
      rw [hp] at hq
      simp only [Option.some.injEq, Bound.leaf.injEq] at hq
      exact ⟨rfl, by omega⟩
    · have := leaves_disjoint fast s 0 p q o1 n1 o2 n2 hp hq hpq
      omega
  · intro i hi
    rw [(computeSizes_offset fast s 0).2] at hi
    obtain ⟨p, o, n, hb, h1, h2⟩ := leaves_cover fast s 0 i (Nat.zero_le _) (by omega)
    exact ⟨p, _, i - o, hb, ⟨o, n, rfl⟩, by simp only [Bound.n]; omega, by
      simp only [Bound.localIndex, Bound.offset]; omega⟩

/-- **C13 (DOF indices).** If the finite elements have as many local keys as shape functions and the container
is large enough (`maxLocalSize()`), `bind` succeeds, keeps the size of the container, and `dofIndex(j)` of every leaf
whose entity set contains the element consists of the sub-entity of its `j`-th local key and of the tree path
of the leaf followed by the index of the key. -/
theorem C13_dof_indices (s : Space) (hw : WellFormed s) (a : List Dof) (hsize : s.dofs false ≤ a.length) :
    ∃ b a', bindTo false s a = some (b, a') ∧ a'.length = a.length ∧
      ∀ p mx bs e ks, s.at? p = some (.leaf true mx bs e ks) →
        ∃ c, b.at? p = some c ∧ c.n = ks.length ∧
          ∀ (j : Nat) (k : Key), ks[j]? = some k →
            dofIndex a' c j = some ⟨k.gt, k.entity, p ++ [k.index]⟩ := by
  obtain ⟨a', f, l, o, g⟩ := fill_spec s hw 0 a (by omega)
  refine ⟨_, a', by simp only [bindTo, f]; rfl, l, ?_⟩
  intro p mx bs e ks hp
  obtain ⟨o, n, hb, hk⟩ := g p mx bs e ks hp
  refine ⟨_, hb, ?_, hk⟩
  obtain ⟨o', e', -, -⟩ := at_computeSizes false p s 0 _ hp
  rw [hb] at e'
  injection e' with e'
  rw [e', (computeSizes_offset false _ o').2]
  have hwf : WellFormed (Space.leaf true mx bs e ks) := wf_at p _ _ hw hp
  cases hwf with
  | leaf _ _ _ _ _ h => simp [Space.dofs, leafSize, h]

/-- A Taylor-Hood like tree: two components with two DOFs each (the second one not defined on the element) and
a pressure space. -/
private def exTree : Space :=
  .node 2 fun
    | 0 => .node 2 fun
      | 0 => .leaf true 2 2 (3, 0) [⟨0, 4, 0⟩, ⟨0, 5, 0⟩]
      | _ => .leaf false 2 2 (3, 0) [⟨0, 4, 0⟩, ⟨0, 5, 0⟩]
    | _ => .leaf true 3 2 (3, 0) [⟨3, 0, 0⟩, ⟨3, 0, 1⟩]

private theorem exTree_wf : WellFormed exTree := by
  refine .node _ _ fun i hi => ?_
  match i with
  | 0 =>
    refine .node _ _ fun i hi => ?_
    match i with
    | 0 => exact .leaf _ _ _ _ _ rfl
    | 1 => exact .leaf _ _ _ _ _ rfl
  | 1 => exact .leaf _ _ _ _ _ rfl

/-- The hypotheses are met by a non-trivial tree (stale contents in the container), and the result is as expected. -/
example : WellFormed exTree ∧ exTree.dofs false ≤ (setup 7).length ∧
    (bindTo false exTree (setup 7)).map (fun r => (r.1.n, r.2.take 5)) =
      some (4, [⟨0, 4, [0, 0, 0]⟩, ⟨0, 5, [0, 0, 0]⟩, ⟨3, 0, [1, 0]⟩, ⟨3, 0, [1, 1]⟩, ⟨0, 0, []⟩]) :=
  ⟨exTree_wf, by decide, by decide +kernel⟩

/-- **C55 is false of the code**: `localVectorSize()` is documented as the `size()` of the root, but is the
maximal size over all elements, for instance when a leaf is not defined on the element. -/
theorem C55_localVectorSize_is_root_size_false :
    ¬ ∀ (s : Space) (a a' : List Dof) (b : Bound), WellFormed s → s.dofs false ≤ a.length →
      bindTo false s a = some (b, a') → localVectorSize a' = b.n := by
  intro h
  have hb : ∃ r, bindTo false exTree (setup 7) = some r := by
    cases hr : bindTo false exTree (setup 7) with
    | none => exact absurd hr (by decide +kernel)
    | some r => exact ⟨r, rfl⟩
  obtain ⟨⟨b, a'⟩, hr⟩ := hb
  have h1 := h _ _ _ _ exTree_wf (by decide) hr
  have h2 : (bindTo false exTree (setup 7)).map (fun r => (localVectorSize r.2, r.1.n)) = some (7, 4) := by
    decide +kernel
  rw [hr] at h2
  simp only [Option.map_some, Option.some.injEq, Prod.mk.injEq] at h2
  omega

/-- **C55, what holds**: `localVectorSize()` is never changed by `bind`, and `localIndex` of every node maps below it. -/
theorem C55_localVectorSize_partial (s : Space) (hw : WellFormed s) (a : List Dof)
    (hsize : s.dofs false ≤ a.length) :
    ∃ b a', bindTo false s a = some (b, a') ∧ localVectorSize a' = localVectorSize a ∧
      b.n ≤ localVectorSize a' ∧
      ∀ p c j, b.at? p = some c → j < c.n → c.localIndex j < b.n := by
  obtain ⟨b, a', hb, hl, -⟩ := C13_dof_indices s hw a hsize
  refine ⟨b, a', hb, hl, ?_⟩
  obtain ⟨rfl⟩ : b = (computeSizes false s 0).1 := by
    unfold bindTo at hb
    cases hf : fillIndices false s (computeSizes false s 0).1 a with
    | none => simp [hf] at hb
    | some x => simp [hf] at hb; exact hb.1.symm
  rw [(computeSizes_offset false s 0).2]
  refine ⟨by unfold localVectorSize; omega, ?_⟩
  intro p c j hc hj
  obtain ⟨t, ht⟩ := at_computeSizes_conv false p s 0 c hc
  obtain ⟨o, e, l1, l2⟩ := at_computeSizes false p s 0 t ht
  rw [hc] at e
  injection e with e
  subst e
  rw [(computeSizes_offset false t o).2] at hj
  simp only [Bound.localIndex, (computeSizes_offset false t o).1]
  omega

example : ∃ (s : Space) (a : List Dof), WellFormed s ∧ s.dofs false ≤ a.length ∧ s.dofs false = 4 := ⟨exTree, setup 7, exTree_wf, by decide, by decide⟩

end Verif
