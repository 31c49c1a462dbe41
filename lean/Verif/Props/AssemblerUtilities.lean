import Verif.Proofs.AssemblerUtilities
/-
C18, C19, C59, C60, C61: pattern and Jacobian assembly with constraints, index caches, transformations of vectors.
-/
namespace Verif
open Constraints Assembly

section
variable {I F : Type} [DecidableEq I] [DecidableEq F] [CommRing F]

/-- **C18.** Let all nonzero local matrix entries couple DOFs that are linked by some local pattern. Then Jacobian
assembly (any sequence of local matrices, with any combination of unconstrained, Dirichlet and linearly constrained test
and trial DOFs, in symmetric and in standard mode) never adds to an entry that is not in the assembled pattern, and no
assertion fails: the assembly succeeds. -/
theorem C18_scatter_stays_in_pattern (tu tv : Trafo I F) (symmetric : Bool) (ci0 : Nat → I)
    (pattern : List (PatternPart I)) (parts : List (JacobianPart I F)) (hu : FlagValid tu)
    (hval : ∀ q ∈ pattern, q.Valid) (hcov : Covered pattern parts) :
    ∃ m, assembleJacobian tu tv symmetric ci0 pattern parts = some m := by
  obtain ⟨m0, h, -⟩ := assembleJacobian_eq tu tv symmetric ci0 pattern parts hu hval hcov
  exact ⟨_, h⟩

/-- **C19.** After assembly with post-processing, the row of every constrained test DOF that some local pattern links with
itself is zero except for a one on the diagonal. -/
theorem C19_constrained_rows_partial (tu tv : Trafo I F) (symmetric : Bool) (ci0 : Nat → I)
    (pattern : List (PatternPart I)) (parts : List (JacobianPart I F)) (hu : FlagValid tu)
    (hval : ∀ q ∈ pattern, q.Valid) (hcov : Covered pattern parts) (m : Matrix I F)
    (hm : assembleJacobian tu tv symmetric ci0 pattern parts = some m) (r : I) (hr : tv.Constrained r)
    (hdiag : ∃ q ∈ pattern, ∃ l ∈ q.links, q.v l.1 = r ∧ q.u l.2 = r) (c : I) :
    m.val r c = if c = r then 1 else 0 := by
  obtain ⟨m0, h, hp, -⟩ := assembleJacobian_eq tu tv symmetric ci0 pattern parts hu hval hcov
  rw [hm] at h
  simp only [Option.some.injEq] at h
  subst h
  obtain ⟨row, hrow⟩ := hr
  have hne : find? r tv.rows ≠ none := fun h => (find?_none_iff r tv.rows).mp h row hrow
  have hin : (r, r) ∈ m0.pattern := by
    obtain ⟨q, hq, l, hl, e1, e2⟩ := hdiag
    rw [hp]
    refine assemblePattern_mem tu tv _ pattern _ _ rfl rfl (fun _ _ => rfl) (fun _ _ => rfl) hval q hq l hl _ ?_
    rw [e1, e2]
    unfold linksOf addDiagonalEntry
    simp
  have h2 := (setTrivialRows_apply tv.rows m0).2 r c
  unfold setTrivialRows
  rw [h2, if_pos hne]
  simp [hin]

/-- **C19 (rows of unconstrained DOFs).** Post-processing does not touch the rows of unconstrained DOFs, whatever the
matrix. -/
theorem C19_other_rows_untouched (tv : Trafo I F) (m : Matrix I F) (r : I) (hr : ¬ tv.Constrained r) (c : I) :
    (setTrivialRows tv m).val r c = m.val r c := by
  have h2 := (setTrivialRows_apply tv.rows m).2 r c
  unfold setTrivialRows
  rw [h2, if_neg]
  intro h
  apply h
  rw [find?_none_iff]
  exact fun v hv => hr ⟨v, hv⟩

/-- **C60.** The rows of unconstrained test DOFs of the assembled Jacobian are those of the matrix `Tᵛ A Tᵘ` in which the
constraints have been eliminated: sum over all local matrices and entries, weighted with the coefficients of the test and
trial DOFs. In particular the two code paths (with and without caching of constraints) agree. -/
theorem C60_jacobian_is_constraint_transformed (tu tv : Trafo I F) (symmetric : Bool) (ci0 : Nat → I)
    (pattern : List (PatternPart I)) (parts : List (JacobianPart I F)) (hu : FlagValid tu) (hv : FlagValid tv)
    (hval : ∀ q ∈ pattern, q.Valid) (hcov : Covered pattern parts) (m : Matrix I F)
    (hm : assembleJacobian tu tv symmetric ci0 pattern parts = some m) (r : I) (hr : ¬ tv.Constrained r) (c : I) :
    m.val r c = jacobianEntry tu tv symmetric parts r c := by
  obtain ⟨m0, h, hp, hs⟩ := assembleJacobian_eq tu tv symmetric ci0 pattern parts hu hval hcov
  rw [hm] at h
  simp only [Option.some.injEq] at h
  subst h
  rw [C19_other_rows_untouched tv m0 r hr c, hs]
  have hn : find? r tv.rows = none := (find?_none_iff r tv.rows).mpr fun v hv => hr ⟨v, hv⟩
  unfold jacobianEntry
  congr 1
  apply List.map_congr_left
  intro p _
  congr 1
  apply List.map_congr_left
  intro i _
  congr 1
  apply List.map_congr_left
  intro j _
  exact weights_eq tu tv symmetric hu hv p i j r c hn

end

/-- **C19** is false without the hypothesis on the diagonal: if no local pattern links the constrained DOF with itself,
`clear_row` does not find the diagonal entry and the row is zero. -/
theorem C19_constrained_rows_false :
    ¬ ∀ (tu tv : Trafo Nat Int) (symmetric : Bool) (ci0 : Nat → Nat) (pattern : List (PatternPart Nat))
      (parts : List (JacobianPart Nat Int)), FlagValid tu → (∀ q ∈ pattern, q.Valid) → Covered pattern parts →
      ∀ m, assembleJacobian tu tv symmetric ci0 pattern parts = some m →
      ∀ r, tv.Constrained r → ∀ c, m.val r c = if c = r then 1 else 0 := by
  intro h
  have hq := h ⟨[], false⟩ ⟨[(0, [])], false⟩ false id
    [⟨1, 1, fun _ => 0, fun _ => 1, [(0, 0)]⟩] [⟨1, 1, fun _ => 0, fun _ => 1, fun _ _ => 5⟩]
    (by intro k row h; simp at h)
    (by intro q hq; simp only [List.mem_singleton] at hq; subst hq; intro l hl; simp at hl; subst hl; decide)
    (by
      intro p hp i hi j hj _
      simp only [List.mem_singleton] at hp
      subst hp
      exact ⟨_, List.mem_singleton.mpr rfl, (0, 0), by simp, rfl, rfl⟩)
    _ rfl 0 ⟨[], by simp⟩ 0
  exact absurd hq (by decide)

/-- A case with all kinds of constraints: test and trial DOF 7 depends linearly on 1 and 2, DOF 3 is a Dirichlet DOF. -/
def exampleTrafo : Trafo Nat Int := ⟨[(7, [(1, 2), (2, 3)]), (3, [])], true⟩
/-- Full local pattern on the DOFs 1, 3, 7. -/
def examplePattern : List (PatternPart Nat) :=
  [⟨3, 3, fun i => [1, 3, 7].getD i 0, fun i => [1, 3, 7].getD i 0,
    [(0, 0), (0, 1), (0, 2), (1, 0), (1, 1), (1, 2), (2, 0), (2, 1), (2, 2)]⟩]
/-- A local matrix on these DOFs. -/
def exampleParts : List (JacobianPart Nat Int) :=
  [⟨3, 3, fun i => [1, 3, 7].getD i 0, fun i => [1, 3, 7].getD i 0, fun i j => 10 * i + j + 1⟩]

/-- The hypotheses of C18, C19 and C60 hold in this case, and the theorems say something about it. -/
example : FlagValid exampleTrafo ∧ (∀ q ∈ examplePattern, q.Valid) ∧ Covered examplePattern exampleParts ∧
    exampleTrafo.Constrained 7 ∧ ¬ exampleTrafo.Constrained 1 ∧
    (∃ q ∈ examplePattern, ∃ l ∈ q.links, q.v l.1 = 7 ∧ q.u l.2 = 7) ∧
    jacobianEntry exampleTrafo exampleTrafo false exampleParts 1 1 = 1 + 2 * 3 + 21 * 2 + 2 * 2 * 23 := by
  refine ⟨fun _ _ _ _ => rfl, ?_, ?_, ⟨[(1, 2), (2, 3)], by simp [exampleTrafo]⟩, ?_, ?_, by decide⟩
  · intro q hq
    simp only [examplePattern, List.mem_singleton] at hq
    subst hq
    intro l hl
    simp at hl
    rcases hl with rfl | rfl | rfl | rfl | rfl | rfl | rfl | rfl | rfl <;> decide
  · intro p hp i hi j hj _
    simp only [exampleParts, List.mem_singleton] at hp
    subst hp
    refine ⟨_, List.mem_singleton.mpr rfl, (i, j), ?_, rfl, rfl⟩
    simp only at hi hj
    have h1 : i = 0 ∨ i = 1 ∨ i = 2 := by omega
    have h2 : j = 0 ∨ j = 1 ∨ j = 2 := by omega
    rcases h1 with rfl | rfl | rfl <;> rcases h2 with rfl | rfl | rfl <;> simp
  · rintro ⟨row, h⟩; simp [exampleTrafo] at h
  · exact ⟨_, List.mem_singleton.mpr rfl, (2, 2), by simp, rfl, rfl⟩

section
variable {I F : Type} [DecidableEq I]

/-- **C59.** After an index cache with caching of constraints has been bound to an element, its flags and the coefficients
it returns for each local DOF are those that the constraints container holds for the DOF, whatever element it was bound to
before; and its container indices are those of the element. -/
theorem C59_index_cache_reflects_constraints (t : Trafo I F) (c : Cache I F) (hc : c.caching = true) (n : Nat)
    (ci : Nat → I) :
    (c.update t n ci).size = n ∧ (c.update t n ci).ci = ci ∧ ∀ i < n,
      ((c.update t n ci).constrained i = true ↔ find? (ci i) t.rows ≠ none) ∧
      ((c.update t n ci).constrained i = true → ((c.update t n ci).dirichlet i = true ↔ find? (ci i) t.rows = some [])) ∧
      ((c.update t n ci).constrained i = true → find? (ci i) t.rows = some ((c.update t n ci).entries i)) := by
  obtain ⟨⟨h1, h2, h3⟩, -⟩ := bound_update t c n ci (by rw [hc]; simp)
  rw [hc] at h3
  refine ⟨h1, h2, fun i hi => ?_⟩
  have h := h3 i hi
  simp only [if_true] at h
  rcases hf : find? (ci i) t.rows with _ | _ | ⟨e, row⟩ <;> rw [hf] at h <;> simp only at h
  · simp [h]
  · simp [h.1, h.2.1, h.2.2]
  · simp [h.1, h.2.1, h.2.2]

/-- **C59 (without caching).** A cache without caching of constraints reports no constraints for any sequence of
elements. -/
theorem C59_no_caching_no_constraints (t : Trafo I F) (ci0 : Nat → I) (els : List (Nat × (Nat → I))) (i : Nat) :
    (els.foldl (fun c e => c.update t e.1 e.2) (Cache.init false ci0 : Cache I F)).constrained i = false := by
  suffices ∀ (c : Cache I F), c.caching = false → (∀ i, c.constrained i = false) →
      (els.foldl (fun c e => c.update t e.1 e.2) c).constrained i = false from this _ rfl (fun _ => rfl)
  induction els with
  | nil => intro c _ h; exact h i
  | cons e els ih =>
    intro c hc h
    obtain ⟨-, h2, h3⟩ := bound_update t c e.1 e.2 (fun _ => h)
    exact ih _ (by rw [h2, hc]) (h3 (by rw [h2, hc]))

/-- A cache that was bound to DOFs 7, 3 is rebound to 1, 7. -/
example : let c := ((Cache.init true id).update exampleTrafo 2 fun i => [7, 3].getD i 0).update exampleTrafo 2 fun i => [1, 7].getD i 0
    c.caching = true ∧ c.constrained 0 = false ∧ c.constrained 1 = true ∧ c.entries 1 = [(1, 2), (2, 3)] := by decide

end

section
variable {I F : Type} [DecidableEq I] [CommRing F]

open Classical in
/-- **C61.** `backtransform` is the transpose of `forwardtransform`, with and without restriction, for constraints that do
not depend on constrained DOFs: the scalar products agree for all vectors. -/
theorem C61_backtransform_is_transpose [Fintype I] (t : Trafo I F) (hn : t.NoChains) (hk : (t.rows.map Prod.fst).Nodup)
    (restrict : Bool) (x y : I → F) :
    ∑ i, forwardTransform t restrict x i * y i = ∑ i, x i * backTransform t restrict y i := by
  have hS : ∀ c ∈ t.rows, t.Constrained c.1 := fun c hc => ⟨c.2, hc⟩
  have hE : ∀ c ∈ t.rows, ∀ e ∈ c.2, ¬ t.Constrained e.1 := fun c hc e he => hn c.1 c.2 e.1 e.2 hc he
  have hd := distribute_apply (fun j => t.Constrained j) t.rows hS hE x
  have hb := back_apply restrict (fun j => t.Constrained j) t.rows hk hS hE y
  have hmem : ∀ i, t.Constrained i ↔ i ∈ t.rows.map Prod.fst := by
    intro i
    constructor
    · rintro ⟨row, h⟩; exact List.mem_map.mpr ⟨(i, row), h, rfl⟩
    · intro h; obtain ⟨c, hc, rfl⟩ := List.mem_map.mp h; exact hS c hc
  have hz : ∀ i, t.Constrained i → ∀ c ∈ t.rows, coef c.2 i = 0 := by
    intro i hi c hc
    apply List.sum_eq_zero
    intro v hv
    obtain ⟨e, he, rfl⟩ := List.mem_map.mp hv
    rw [if_neg]
    intro e'; exact hE c hc e he (by rw [e']; exact hi)
  have hf : ∀ i, forwardTransform t restrict x i
      = (if restrict = true ∧ i ∈ t.rows.map Prod.fst then 0 else x i) + (t.rows.map fun c => coef c.2 i * x c.1).sum := by
    intro i
    unfold forwardTransform
    cases restrict with
    | false => simp [hd]
    | true =>
      simp only [if_true, true_and]
      have hs := setConstrained_apply t (0 : F) (t.rows.foldl distributeCol x) i
      unfold setConstrained at hs
      by_cases hi : t.Constrained i
      · rw [hs.1 hi, if_pos ((hmem i).mp hi)]
        symm
        rw [zero_add]
        apply List.sum_eq_zero
        intro v hv
        obtain ⟨c, hc, rfl⟩ := List.mem_map.mp hv
        rw [hz i hi c hc, zero_mul]
      · rw [hs.2 hi, if_neg (fun h => hi ((hmem i).mpr h)), hd]
  have hbt : ∀ i, backTransform t restrict y i = _ := hb
  have e1 : ∀ i, forwardTransform t restrict x i * y i
      = (if restrict = true ∧ i ∈ t.rows.map Prod.fst then 0 else x i * y i)
        + (t.rows.map fun c => x c.1 * (coef c.2 i * y i)).sum := by
    intro i
    rw [hf, add_mul, ite_mul, zero_mul, ← List.sum_map_mul_right]
    congr 2
    apply List.map_congr_left
    intro c _; ring
  have e2 : ∀ i, x i * backTransform t restrict y i
      = (if restrict = true ∧ i ∈ t.rows.map Prod.fst then 0 else x i * y i)
        + (t.rows.map fun c => if c.1 = i then x c.1 * rowDot c.2 y else 0).sum := by
    intro i
    rw [hbt, mul_add, mul_ite, mul_zero, ← List.sum_map_mul_left]
    congr 2
    apply List.map_congr_left
    intro c _
    split
    · rename_i h; rw [h]
    · ring
  simp only [e1, e2, Finset.sum_add_distrib]
  congr 1
  rw [sum_list_comm, sum_list_comm]
  congr 1
  apply List.map_congr_left
  intro c _
  rw [← Finset.mul_sum, sum_coef_mul]
  simp

/-- A container meeting the hypotheses. -/
example : (Trafo.mk [((2 : Fin 4), [((0 : Fin 4), (2 : Int)), (1, 3)]), (3, [])] true).NoChains ∧
    (([((2 : Fin 4), [((0 : Fin 4), (2 : Int)), (1, 3)]), (3, [])] : List (Fin 4 × List (Fin 4 × Int))).map Prod.fst).Nodup ∧
    forwardTransform (Trafo.mk [((2 : Fin 4), [((0 : Fin 4), (2 : Int)), (1, 3)]), (3, [])] true) true (fun _ => 1) 0 = 3 := by
  refine ⟨?_, by decide, by decide⟩
  rintro k row j w h1 h2 ⟨r, h3⟩
  simp at h1 h2 h3
  rcases h1 with ⟨rfl, rfl⟩ | ⟨rfl, rfl⟩
  · simp at h2; rcases h2 with ⟨rfl, rfl⟩ | ⟨rfl, rfl⟩ <;> simp at h3
  · simp at h2

end

end Verif
