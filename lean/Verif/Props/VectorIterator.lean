import Verif.Proofs.VectorIterator
/-
Theorems about the flat iterator over nested vectors (C37).
-/
namespace Verif

open VectorIterator VectorIterator.Spec

variable {α : Type}

/-- C37: for every nested vector, with any depth and any block sizes, a loop from `begin()` to `end()` comes to its end (given enough rounds)
without dereferencing an invalid iterator, and it visits exactly the entries of the vector, in lexicographic order of their index paths,
and hence each one exactly once. -/
theorem C37_flat_iteration (v : Vec α) :
    ∃ visited, (∃ n, ∀ fuel, n ≤ fuel → traverse v fuel (construct v false) = some visited) ∧
      (∀ p, p ∈ visited ↔ (entry v p).isSome) ∧ visited.Pairwise lexLt ∧ visited.Nodup := by
  refine ⟨paths v, ⟨_, fun fuel hf => traverse_paths v fuel hf⟩, mem_paths v, sorted_paths v, ?_⟩
  refine (sorted_paths v).imp ?_
  intro a b h hab
  subst hab
  exact lexLt_irrefl a h

/-- Empty blocks at the beginning, in the middle and at the end, on two levels. -/
example : traverse (Vec.block [.block [], .block [.leaf [], .leaf [1, 2], .leaf []], .block [.leaf []], .block [.leaf [3], .leaf [], .leaf [4]],
      .block [.leaf []]]) 9
    (construct (Vec.block [.block [], .block [.leaf [], .leaf [1, 2], .leaf []], .block [.leaf []], .block [.leaf [3], .leaf [], .leaf [4]],
      .block [.leaf []]]) false) = some [[1, 1, 0], [1, 1, 1], [3, 0, 0], [3, 2, 0]] := by decide +kernel
example : traverse (Vec.block ([.leaf [], .leaf []] : List (Vec Nat))) 1 (construct (Vec.block ([.leaf [], .leaf []] : List (Vec Nat))) false) = some [] := by
  decide +kernel
example : traverse (Vec.block [.one 5, .one 6]) 3 (construct (Vec.block [.one 5, .one 6]) false) = some [[0, 0], [1, 0]] := by decide +kernel

end Verif
