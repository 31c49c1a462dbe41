import Verif.Proofs.MetisPartition
/-
Properties of partitions with METIS.
-/
namespace Verif

open MetisPartition MetisPartition.Spec Partition

variable {α : Type}

/-! ### C194: partitions with METIS -/

/-- C194. The mesh METIS is given consists of the elements of the entity set, in this order, with their vertices. -/
theorem C194_mesh (corners : α → List Nat) (p : Nat) (elements : List α) :
    (mesh corners p elements).2 = elements ∧ (mesh corners p elements).1.elementCount = elements.length ∧
      (mesh corners p elements).1.cells.length = elements.length + 1 ∧ (mesh corners p elements).1.parts = p ∧
      (mesh corners p elements).1.cells.getD elements.length 0 = (mesh corners p elements).1.nodes.length ∧
      ∀ i (hi : i < elements.length), nodesOf (mesh corners p elements).1 i = corners elements[i] := by
  rw [mesh_eq]
  refine ⟨rfl, rfl, by simp [length_offsets], rfl, ?_, ?_⟩
  · simp only
    rw [offsets_get corners elements 0 _ (Nat.le_refl _)]
    simp
  · intro i hi
    simp only [nodesOf]
    rw [offsets_get corners elements 0 i (by omega), offsets_get corners elements 0 (i + 1) (by omega)]
    have hsplit : elements.flatMap corners =
        (elements.take i).flatMap corners ++ (corners elements[i] ++ (elements.drop (i + 1)).flatMap corners) := by
      conv_lhs => rw [← List.take_append_drop i elements, List.drop_eq_getElem_cons hi]
      simp only [List.flatMap_append, List.flatMap_cons]
    have hlen : ((elements.take (i + 1)).flatMap corners).length =
        ((elements.take i).flatMap corners).length + (corners elements[i]).length := by
      rw [List.take_add_one, List.getElem?_eq_getElem hi]
      simp only [Option.toList_some, List.flatMap_append, List.flatMap_cons, List.flatMap_nil, List.append_nil, List.length_append]
    rw [hsplit, hlen]
    simp only [Nat.zero_add, List.drop_left, Nat.add_sub_cancel_left, List.take_left]

/-- C194. The number of nodes METIS is told is large enough for all nodes of the mesh, if the indices of the vertices are consecutive and each
vertex belongs to an element. -/
theorem C194_nodes (corners : α → List Nat) (p nv : Nat) (elements : List α)
    (hlt : ∀ e ∈ elements, ∀ v ∈ corners e, v < nv) (hon : ∀ v < nv, ∃ e ∈ elements, v ∈ corners e) :
    ∀ v ∈ (mesh corners p elements).1.nodes, v < (mesh corners p elements).1.nodeCount := by
  rw [mesh_eq]
  intro v hv
  simp only at hv ⊢
  have hle : nv ≤ (elements.flatMap corners).length := by
    have hs : List.range nv ⊆ elements.flatMap corners := by
      intro w hw
      obtain ⟨e, he, h⟩ := hon w (List.mem_range.mp hw)
      exact List.mem_flatMap.mpr ⟨e, he, h⟩
    have := (List.nodup_range.subperm hs).length_le
    simpa using this
  obtain ⟨e, he, h⟩ := List.mem_flatMap.mp hv
  exact Nat.lt_of_lt_of_le (hlt e he v h) hle

/-- C194. Whatever parts METIS chooses, the partition has the required number of patches, and patch `k` consists of the elements of part `k`:
each element of the entity set is in one patch. -/
theorem C194_patches (dim : Nat) (corners : α → List Nat) (metis : Mesh → Option (List Nat)) (patches : Nat) (elements : List α)
    (hp : 2 ≤ patches)
    (part : List Nat) (hm : metis (mesh corners patches elements).1 = some part) (hv : ValidAnswer patches elements.length part) :
    ∃ ps, update dim corners metis patches elements = .ok (patches, ps) ∧ ps.length = patches ∧
      (∀ k < patches, ps[k]? = some (patchOf elements part k)) ∧ ps.flatten.Perm elements := by
  have hc : choosePatches dim patches elements.length = patches := by
    unfold choosePatches
    rw [if_neg (by omega)]
  have hz : ∀ x ∈ elements.zip part, x.2 < (List.replicate patches ([] : List α)).length := by
    intro x hx
    rw [List.length_replicate]
    exact hv.2 x.2 (List.of_mem_zip (a := x.1) (b := x.2) hx).2
  obtain ⟨ps, h1, h2, h3⟩ := assign_eq (elements.zip part) (List.replicate patches []) hz
  have h3' : ∀ k < patches, ps[k]? = some (patchOf elements part k) := by
    intro k hk
    rw [h3 k (by simpa using hk)]
    simp [patchOf, hk]
  have h2' : ps.length = patches := by simpa using h2
  refine ⟨ps, ?_, h2', h3', ?_⟩
  · simp only [update, hc]
    rw [if_neg (by omega)]
    have hs : (mesh corners patches elements).2 = elements := by rw [mesh_eq]
    simp only [hm, hs, h1]
  · have hps : ps = (List.range patches).map fun k => ((elements.zip part).filter fun x => x.2 = k).map Prod.fst := by
      refine List.ext_getElem? fun k => ?_
      by_cases hk : k < patches
      · rw [h3' k hk]
        simp [hk, patchOf]
      · rw [List.getElem?_eq_none (by omega)]
        symm
        rw [List.getElem?_eq_none]
        simp
        omega
    rw [hps]
    refine (perm_filters patches (elements.zip part) fun x hx => by simpa using hz x hx).trans ?_
    rw [List.map_fst_zip (Nat.le_of_eq hv.1.symm)]

/-- C194. With one patch, METIS is not asked: the patch consists of all elements. -/
theorem C194_single (dim : Nat) (corners : α → List Nat) (metis : Mesh → Option (List Nat)) (elements : List α) :
    update dim corners metis 1 elements = .ok (1, [elements]) := by
  simp [update, choosePatches]

/-- C194. If METIS fails, so does the construction of the partition, with an exception. -/
theorem C194_failure (dim : Nat) (corners : α → List Nat) (metis : Mesh → Option (List Nat)) (patches : Nat) (elements : List α)
    (hp : 2 ≤ patches) (hm : metis (mesh corners patches elements).1 = none) :
    update dim corners metis patches elements = .error .partitionError := by
  have hc : choosePatches dim patches elements.length = patches := by
    unfold choosePatches
    rw [if_neg (by omega)]
  simp only [update, hc]
  rw [if_neg (by omega)]
  simp only [hm]

/-- C194. The colored partition chooses the number of patches anew for the entity set of the last update: the history does not matter. -/
theorem C194_colored (dim : Nat) (corners : α → List Nat) (metis : Mesh → Option (List Nat)) (patches : Nat) (history : List (List α))
    (elements : List α) (hok : ∀ es ∈ history, ∃ r, update dim corners metis patches es = .ok r) :
    coloredRun dim corners metis patches (history ++ [elements]) = update dim corners metis patches elements := by
  induction history with
  | nil => rfl
  | cons es history ih =>
    obtain ⟨r, hr⟩ := hok es (by simp)
    have := ih fun es' h => hok es' (List.mem_cons_of_mem _ h)
    cases history with
    | nil => simp [coloredRun, hr]
    | cons e' h' =>
      simp only [List.cons_append, coloredRun, hr] at this ⊢
      exact this

/-- C194. The partition of class `Metis` does so as well if a number of patches was given. -/
theorem C194_given_partial (dim : Nat) (corners : α → List Nat) (metis : Mesh → Option (List Nat)) (patches : Nat) (hp : 1 ≤ patches)
    (history : List (List α)) (elements : List α) (hok : ∀ es ∈ history, ∃ r, update dim corners metis patches es = .ok r) :
    metisRun dim corners metis patches (history ++ [elements]) = update dim corners metis patches elements := by
  have hc : ∀ n, choosePatches dim patches n = patches := by
    intro n
    unfold choosePatches
    rw [if_neg (by omega)]
  have hk : ∀ es r, update dim corners metis patches es = .ok r → r.1 = patches := by
    intro es r h
    simp only [update, hc] at h
    split at h
    · simp only [Except.ok.injEq] at h
      rw [← h]
    · split at h
      · cases h
      · split at h
        · cases h
        · simp only [Except.ok.injEq] at h
          rw [← h]
  induction history with
  | nil => rfl
  | cons es history ih =>
    obtain ⟨r, hr⟩ := hok es (by simp)
    have h1 := hk es r hr
    have := ih fun es' h => hok es' (List.mem_cons_of_mem _ h)
    obtain ⟨r1, r2⟩ := r
    simp only at h1
    subst h1
    cases history with
    | nil => simp [metisRun, hr]
    | cons e' h' =>
      simp only [List.cons_append, metisRun, hr] at this ⊢
      exact this

/-- C194. With an automatic choice, however, class `Metis` keeps the number of patches it chose for the entity set it was constructed with: the
partition of a grid that has been refined depends on what the grid was before. -/
theorem C194_automatic_false : ∃ (corners : Nat → List Nat) (metis : Mesh → Option (List Nat)) (coarse fine : List Nat),
    (∀ m, 1 ≤ m.parts → ∃ part, metis m = some part ∧ ValidAnswer m.parts m.elementCount part) ∧
      (∃ r, update 2 corners metis 0 coarse = .ok r) ∧
      metisRun 2 corners metis 0 [coarse, fine] ≠ update 2 corners metis 0 fine := by
  refine ⟨fun _ => [], fun m => some (List.replicate m.elementCount 0), [0], List.range 500, ?_, ⟨(1, [[0]]), by decide⟩, ?_⟩
  · intro m hm
    refine ⟨_, rfl, by simp, ?_⟩
    intro k hk
    have := List.eq_of_mem_replicate hk
    omega
  · have h1 : metisRun 2 (fun _ : Nat => []) (fun m => some (List.replicate m.elementCount 0)) 0 [[0], List.range 500] =
        .ok (1, [List.range 500]) := by
      simp [metisRun, update, choosePatches, entitiesPerPatch]
    rw [h1]
    have hc : choosePatches 2 0 (List.range 500).length = 2 := by simp [choosePatches, entitiesPerPatch]
    simp only [update, hc]
    intro h
    simp only [Nat.reduceEqDiff, if_false] at h
    split at h
    · cases h
    · simp at h

/-- C194. Elements that share a facet are adjacent for METIS in two and more dimensions: facets have at least `dim` vertices. -/
theorem C194_adjacent_partial (corners : α → List Nat) (p dim : Nat) (hdim : 2 ≤ dim) (elements : List α) (i j : Nat)
    (hi : i < elements.length) (hj : j < elements.length)
    (hf : dim ≤ ((corners elements[i]).filter fun v => v ∈ corners elements[j]).length) :
    Adjacent (mesh corners p elements).1 i j := by
  unfold Adjacent
  rw [(C194_mesh corners p elements).2.2.2.2.2 i hi, (C194_mesh corners p elements).2.2.2.2.2 j hj, mesh_eq]
  exact Nat.le_trans hdim hf

/-- C194. In one dimension no two elements are adjacent. -/
theorem C194_adjacent_1d_false (p n i j : Nat) (hi : i < n) (hj : j < n) (hij : i ≠ j) :
    ¬ Adjacent (mesh (fun e : Nat => [e, e + 1]) p (List.range n)).1 i j := by
  unfold Adjacent
  rw [(C194_mesh _ p (List.range n)).2.2.2.2.2 i (by simpa using hi), (C194_mesh _ p (List.range n)).2.2.2.2.2 j (by simpa using hj), mesh_eq]
  simp only [List.getElem_range, List.mem_cons, List.not_mem_nil, or_false, Nat.not_le]
  by_cases h1 : i = j + 1
  · subst h1
    have e : (List.filter (fun v => decide (v = j) || decide (v = j + 1)) [j + 1 + 1]).length = 0 := by
      rw [List.filter_cons_of_neg (by simp; omega)]
      rfl
    simp [e]
  · have h2 : ¬ (i = j ∨ i = j + 1) := by omega
    rw [List.filter_cons_of_neg (by simpa using h2)]
    refine Nat.lt_of_le_of_lt (List.length_filter_le _ _) ?_
    simp

/-! Two triangles and a quadrilateral in two patches. -/

example : mesh (fun e : Nat => if e = 0 then [0, 1, 3] else if e = 1 then [1, 2, 3] else [2, 4, 3, 5]) 2 [0, 1, 2] =
    (⟨3, 10, [0, 3, 6, 10], [0, 1, 3, 1, 2, 3, 2, 4, 3, 5], 2, 2⟩, [0, 1, 2]) := by decide

example : update 2 (fun e : Nat => if e = 0 then [0, 1, 3] else if e = 1 then [1, 2, 3] else [2, 4, 3, 5]) (fun _ => some [1, 0, 1]) 2
    [0, 1, 2] = .ok (2, [[1], [0, 2]]) := rfl

example : ValidAnswer 2 3 [1, 0, 1] := by
  unfold ValidAnswer
  decide

example : ∀ v ∈ [0, 1, 3, 1, 2, 3, 2, 4, 3, 5], v < 6 := by decide

/-- The two triangles share an edge. -/
example : 2 ≤ (([0, 1, 3] : List Nat).filter fun v => v ∈ ([1, 2, 3] : List Nat)).length := by decide

/-- The number is chosen anew. -/
example : choosePatches 2 0 500 = 2 ∧ choosePatches 2 0 1 = 1 := by decide

end Verif
