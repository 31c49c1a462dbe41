import Verif.Proofs.KrylovSolvers
import Verif.Props.ParallelSolvers
/-
C231: iterative solvers running in parallel.
-/
namespace Verif
open ParallelHelper ParallelHelper.Spec ParallelSolvers ParallelSolvers.Spec KrylovSolvers KrylovSolvers.Spec

/-- The registers of a solver in the beginning: register 0 is the initial guess, all others are the right-hand side (or uninitialised: a solver may
clear them first). -/
def startRoles : Nat → Role := fun j => if j = 0 then .solution else .rhs

section
variable {L : Layout} {ents : List Nat} {ndof : Nat → Nat} {ib : Bool} {K : Type} [CommRing K]

theorem start_related {V W : Type} {R : Role → V → W → Prop} {x b : V} {X B : W} (hx : R .solution x X) (hb : R .rhs b B) :
    ∀ j, R (startRoles j) ((fun j => if j = 0 then x else b) j) ((fun j => if j = 0 then X else B) j) := by
  intro j
  unfold startRoles
  by_cases h : j = 0
  · simpa [h] using hx
  · simpa [h] using hb

/-- **C231 (overlapping, wrapped preconditioners).** For every distributed grid, order of messages, matrix assembled on all processes, sequential
preconditioner on the processes and every iterative solver: with the operator, scalar product and preconditioner of the overlapping backends, the
solver on all processes performs the sequential iteration for the global matrix, preconditioned with the additive Schwarz method. All scalar
products are the same, and the result is the same vector on all processes. -/
theorem C231_overlapping_wrapped (hv : Valid L ents ndof ib) (hfull : Full L ndof) {rmsgs : List Msg} (hr : Interface L ib rmsgs)
    {msgs : List Message} (hm : Exchange L all all msgs) {cc : Nat → List Nat} {A : Nat → Nat → Nat → K} {allCells : Finset Nat}
    {cells : Nat → Finset Nat} {M : Nat → Nat → Nat → Nat → Nat → K} (hA : Assembled L cc A allCells cells M) {fixed : Nat → Nat → Prop}
    (hC : Constrained L cc fixed) (prec : Nat → (Nat → K) → (Nat → K) → Nat → K) (hs : LocalSolvers L fun p => prec p fun _ => 0)
    {P : Solver K} (hP : Proper 0 startRoles P) {x b : Vecs K} {X B : Nat → Nat → K} (hx : ConsistentOn L all x X)
    (hb : ∀ p, p < L.procs → ∀ c ∈ L.copies p, ∀ k i : Nat, c.dofs[k]? = some i → i ∉ cc p → b p i = B c.ent k) :
    ∃ z Z l, run (ovlpWrapped L msgs (rankPartition L rmsgs) cc A prec) P (fun j => if j = 0 then x else b) = some (z, l) ∧
      run (eliminated ents ndof (globalMatrix allCells M) fixed (schwarz L ents ndof cc fun p => prec p fun _ => 0)) P
        (fun j => if j = 0 then X else B) = some (Z, l) ∧
      ConsistentOn L all (z 0) (Z 0) := by
  refine simulation (R := OvlpRel L cc fixed) (ovlp_simulates hv hr hA hC _ _ ?_) hP _ _ (start_related hx hb)
  intro d D hd
  obtain ⟨y, h1, h2⟩ := addUp_total hv hm (fits_full hfull hm) (fun p => prec p (fun _ => 0) (zeroConstrained (cc p) (d p)))
  refine ⟨y, h1, ?_⟩
  rw [← schwarz_total hv cc fixed (fun p => prec p fun _ => 0) hs d D hd (fun p => zeroConstrained (cc p) (d p))]
  · exact h2
  · intro p hp i hi
    rw [zeroConstrained_eq]
    obtain ⟨c, hc, k, hk⟩ := exists_pos hv hp hi
    rw [hd.1 p hp c hc k i hk]
    split <;> rfl

/-- **C231 (overlapping, direct solvers on the subdomains).** The same with the exact solvers on the subdomains. -/
theorem C231_overlapping_subdomain (hv : Valid L ents ndof ib) (hfull : Full L ndof) {rmsgs : List Msg} (hr : Interface L ib rmsgs)
    {msgs : List Message} (hm : Exchange L all all msgs) {cc : Nat → List Nat} {A : Nat → Nat → Nat → K} {allCells : Finset Nat}
    {cells : Nat → Finset Nat} {M : Nat → Nat → Nat → Nat → Nat → K} (hA : Assembled L cc A allCells cells M) {fixed : Nat → Nat → Prop}
    (hC : Constrained L cc fixed) (solve : Nat → (Nat → K) → Nat → K) (hs : LocalSolvers L solve)
    {P : Solver K} (hP : Proper 0 startRoles P) {x b : Vecs K} {X B : Nat → Nat → K} (hx : ConsistentOn L all x X)
    (hb : ∀ p, p < L.procs → ∀ c ∈ L.copies p, ∀ k i : Nat, c.dofs[k]? = some i → i ∉ cc p → b p i = B c.ent k) :
    ∃ z Z l, run (ovlpSubdomain L msgs (rankPartition L rmsgs) cc A solve) P (fun j => if j = 0 then x else b) = some (z, l) ∧
      run (eliminated ents ndof (globalMatrix allCells M) fixed (schwarz L ents ndof cc solve)) P (fun j => if j = 0 then X else B) = some (Z, l) ∧
      ConsistentOn L all (z 0) (Z 0) := by
  refine simulation (R := OvlpRel L cc fixed) (ovlp_simulates hv hr hA hC _ _ ?_) hP _ _ (start_related hx hb)
  intro d D hd
  obtain ⟨y, h1, h2⟩ := addUp_total hv hm (fits_full hfull hm) (fun p => solve p (d p))
  refine ⟨y, h1, ?_⟩
  rw [← schwarz_total hv cc fixed solve hs d D hd d fun _ _ _ _ => rfl]
  exact h2

/-- **C231 (nonoverlapping, no preconditioner).** With the nonoverlapping backends, where local matrices and right-hand sides are summands, the solver
performs the sequential iteration for the sum of the matrices and the sum of the right-hand sides. -/
theorem C231_nonoverlapping_plain (hv : Valid L ents ndof ib) {rmsgs : List Msg} (hr : Interface L ib rmsgs) {msgs : List Message}
    (hm : Exchange L Copy.ib Copy.ib msgs) (A : Nat → Nat → Nat → K)
    (hA : ∀ p, p < L.procs → ∀ c ∈ L.copies p, c.ib = false → ∀ j ∈ c.dofs, ∀ i, A p i j = 0)
    {P : Solver K} (hP : Proper 0 startRoles P) {x : Vecs K} {X : Nat → Nat → K} (hx : ConsistentOn L Copy.ib x X) (b : Vecs K) :
    ∃ z Z l, run (novlpPlain L msgs (rankPartition L rmsgs) A) P (fun j => if j = 0 then x else b) = some (z, l) ∧
      run (plain ents ndof (totalMatrix L Copy.ib A) fun d => d) P (fun j => if j = 0 then X else total L Copy.ib b) = some (Z, l) ∧
      ConsistentOn L Copy.ib (z 0) (Z 0) :=
  simulation (R := NovlpRel L) (novlp_simulates hv hr hm A hA some (fun d => d) fun d _ hd => ⟨d, rfl, hd⟩) hP _ _ (start_related hx fun _ _ => rfl)

/-- **C231 (nonoverlapping, Jacobi).** The same with the Jacobi preconditioner: sequentially, the Jacobi preconditioner for the sum of the matrices. -/
theorem C231_nonoverlapping_jacobi (hv : Valid L ents ndof ib) {rmsgs : List Msg} (hr : Interface L ib rmsgs) {msgs : List Message}
    (hm : Exchange L Copy.ib Copy.ib msgs) (A : Nat → Nat → Nat → K)
    (hA : ∀ p, p < L.procs → ∀ c ∈ L.copies p, c.ib = false → ∀ j ∈ c.dofs, ∀ i, A p i j = 0) (inv : K → K)
    {P : Solver K} (hP : Proper 0 startRoles P) {x : Vecs K} {X : Nat → Nat → K} (hx : ConsistentOn L Copy.ib x X) (b : Vecs K) :
    ∃ z Z l, run (novlpJacobi L msgs (rankPartition L rmsgs) A inv) P (fun j => if j = 0 then x else b) = some (z, l) ∧
      run (plain ents ndof (totalMatrix L Copy.ib A) fun d e k => inv (totalMatrix L Copy.ib A e k e k) * d e k) P
        (fun j => if j = 0 then X else total L Copy.ib b) = some (Z, l) ∧
      ConsistentOn L Copy.ib (z 0) (Z 0) := by
  refine simulation (R := NovlpRel L) (novlp_simulates hv hr hm A hA _ _ ?_) hP _ _ (start_related hx fun _ _ => rfl)
  intro d D hd
  obtain ⟨J, h1, h2⟩ := C140_consistent hv hm inv A (· * ·) hd
  refine ⟨_, by rw [h1]; rfl, ?_⟩
  have e : ∀ e k, total L Copy.ib (fun p i => A p i i) e k = totalMatrix L Copy.ib A e k e k := by
    intro e k
    unfold total totalMatrix
    refine Finset.sum_congr rfl fun p _ => ?_
    cases pos L Copy.ib p e k <;> rfl
  simp only [e] at h2
  exact h2

end

/-! ### The solvers of dune-istl -/

section
variable {K : Type} [Field K]

/-- The loop of the conjugate gradient method (dune-istl, `CGSolver::apply`): registers solution 0, defect 1, direction 2 and `q` 3. `stop` is the
test of the defect. -/
def cgLoop (stop : K → Bool) : Nat → K → Solver K
  | 0, _ => .done
  | n + 1, rholast =>
    .apply 3 2 <| .dot 2 3 fun alpha => .axpy 0 (rholast / alpha) 2 <| .axpy 1 (-(rholast / alpha)) 3 <| .dot 1 1 fun defect =>
      if stop defect then .done
      else .prec 3 1 <| .dot 3 1 fun rho => .scale 2 (rho / rholast) <| .axpy 2 1 3 <| cgLoop stop n rho

/-- The conjugate gradient method with at most `maxit` steps. -/
def cg (stop : K → K → Bool) (maxit : Nat) : Solver K :=
  .applyscaleadd (-1) 0 1 <| .dot 1 1 fun def0 => if stop def0 def0 then .done
    else .prec 2 1 <| .dot 2 1 fun rho => cgLoop (stop def0) maxit rho

/-- The loop of the stabilised biconjugate gradient method (dune-istl, `BiCGSTABSolver::apply`): registers solution 0, `r` 1, `rt` 2, `p` 3, `v` 4,
`t` 5, `y` 6. -/
def bcgsLoop (stop : K → Bool) : Nat → K → K → K → Solver K
  | 0, _, _, _ => .done
  | n + 1, rho, alpha, omega =>
    .dot 2 1 fun rhoNew => .axpy 3 (-omega) 4 <| .scale 3 (rhoNew / rho * (alpha / omega)) <| .axpy 3 1 1 <|
      .prec 6 3 <| .apply 4 6 <| .dot 2 4 fun h => .axpy 0 (rhoNew / h) 6 <| .axpy 1 (-(rhoNew / h)) 4 <| .dot 1 1 fun norm =>
        if stop norm then .done
        else .prec 6 1 <| .apply 5 6 <| .dot 5 5 fun tt => .dot 5 1 fun tr => .axpy 0 (tr / tt) 6 <| .axpy 1 (-(tr / tt)) 5 <| .dot 1 1 fun norm =>
          if stop norm then .done else bcgsLoop stop n rhoNew (rhoNew / h) (tr / tt)

/-- The stabilised biconjugate gradient method with at most `maxit` steps. -/
def bcgs (stop : K → K → Bool) (maxit : Nat) : Solver K :=
  .applyscaleadd (-1) 0 1 <| .copy 2 1 <| .dot 1 1 fun def0 => .clear 3 <| .clear 4 <| if stop def0 def0 then .done
    else bcgsLoop (stop def0) maxit 1 1 1

theorem cgLoop_proper (stop : K → Bool) (n : Nat) : ∀ (rho : K) (ρ : Nat → Role), ρ 0 = .solution → ρ 1 = .defect → ρ 2 = .solution →
    Proper 0 ρ (cgLoop stop n rho) := by
  induction n with
  | zero => intro rho ρ h0 _ _; exact .done h0
  | succ n ih =>
    intro rho ρ h0 h1 h2
    unfold cgLoop
    refine .apply h2 (.dot (by simp [h2]) (by simp) fun alpha => .axpy (by simp [h0, h2]) <| .axpy (by simp [h1]) <|
      .dot (by simp [h1]) (by simp [h1]) fun d => ?_)
    split
    · exact .done (by simp [h0])
    · exact .prec (by simp [h1]) <| .dot (by simp) (by simp [h1]) fun r => .scale <| .axpy (by simp [h2]) <| ih _ _ (by simp [h0]) (by simp [h1]) (by simp [h2])

/-- **C231 (conjugate gradients).** The method of conjugate gradients uses its vectors properly, so the theorems apply to it. -/
theorem C231_cg (stop : K → K → Bool) (maxit : Nat) : Proper 0 startRoles (cg stop maxit) := by
  unfold cg
  refine .applyscaleadd rfl rfl <| .dot (by simp) (by simp) fun d => ?_
  split
  · exact .done rfl
  · exact .prec (by simp) <| .dot (by simp) (by simp) fun r => cgLoop_proper _ _ _ _ (by simp [startRoles]) (by simp) (by simp)

theorem bcgsLoop_proper (stop : K → Bool) (n : Nat) : ∀ (rho alpha omega : K) (ρ : Nat → Role), ρ 0 = .solution → ρ 1 = .defect → ρ 2 = .defect →
    ρ 3 = .defect → ρ 4 = .defect → Proper 0 ρ (bcgsLoop stop n rho alpha omega) := by
  induction n with
  | zero => intro rho alpha omega ρ h0 _ _ _ _; exact .done h0
  | succ n ih =>
    intro rho alpha omega ρ h0 h1 h2 h3 h4
    unfold bcgsLoop
    refine .dot (by simp [h2]) (by simp [h1]) fun _ => .axpy (by simp [h3, h4]) <| .scale <| .axpy (by simp [h1, h3]) <| .prec (by simp [h3]) <|
      .apply (by simp) <| .dot (by simp [h2]) (by simp) fun _ => .axpy (by simp [h0]) <| .axpy (by simp [h1]) <|
      .dot (by simp [h1]) (by simp [h1]) fun _ => ?_
    split
    · exact .done (by simp [h0])
    · refine .prec (by simp [h1]) <| .apply (by simp) <| .dot (by simp) (by simp) fun _ => .dot (by simp) (by simp [h1]) fun _ =>
        .axpy (by simp [h0]) <| .axpy (by simp [h1]) <| .dot (by simp [h1]) (by simp [h1]) fun _ => ?_
      split
      · exact .done (by simp [h0])
      · exact ih _ _ _ _ (by simp [h0]) (by simp [h1]) (by simp [h2]) (by simp [h3]) (by simp)

/-- **C231 (stabilised biconjugate gradients).** The same for the stabilised biconjugate gradient method. -/
theorem C231_bcgs (stop : K → K → Bool) (maxit : Nat) : Proper 0 startRoles (bcgs stop maxit) := by
  unfold bcgs
  refine .applyscaleadd rfl rfl <| .copy <| .dot (by simp) (by simp) fun d => .clear .defect <| .clear .defect ?_
  split
  · exact .done rfl
  · exact bcgsLoop_proper _ _ _ _ _ _ (by simp [startRoles]) (by simp) (by simp) (by simp) (by simp)

end

/-! ### Examples -/

/-- The hypotheses on constraints are met by the example with overlap: the end points are fixed, the ends of the overlap constrained. -/
theorem overlapConstrained : Constrained overlapLayout overlapCC fun e _ => e = 0 ∨ e = 4 := by
  constructor
  · intro p hp c hc k i hk h
    have key : ∀ p < 2, ∀ c ∈ overlapLayout.copies p, ∀ i ∈ c.dofs, c.ent = 0 ∨ c.ent = 4 → i ∈ overlapCC p := by decide
    exact key p hp c hc i (List.mem_of_getElem? hk) h
  · intro p hp c hc hib k i hk h
    have key : ∀ p < 2, ∀ c ∈ overlapLayout.copies p, c.ib = true → ∀ i ∈ c.dofs, i ∈ overlapCC p → c.ent = 0 ∨ c.ent = 4 := by decide
    exact key p hp c hc hib i (List.mem_of_getElem? hk) h

/-- The messages about ranks in the example with overlap. -/
def overlapRankMsgs : List Msg := [⟨0, 1, ⟨2, true, [2]⟩⟩, ⟨0, 1, ⟨1, false, [3]⟩⟩, ⟨1, 0, ⟨2, true, [2]⟩⟩, ⟨1, 0, ⟨3, false, [3]⟩⟩]

set_option synthInstance.maxSize 1024 in
set_option synthInstance.maxHeartbeats 400000 in
theorem overlapInterface : Interface overlapLayout false overlapRankMsgs := by
  rintro ⟨p, q, c⟩
  constructor
  · intro h
    have key : ∀ m ∈ overlapRankMsgs, m.src < overlapLayout.procs ∧ m.dst < overlapLayout.procs ∧ m.src ≠ m.dst ∧ m.copy ∈ overlapLayout.copies m.dst ∧
        (∃ c ∈ overlapLayout.copies m.src, c.ent = m.copy.ent ∧ c.ib = true) ∧ (false = true → m.copy.ib = true) := by decide
    exact key _ h
  · rintro ⟨h1, h2, h3, h4, h5, -⟩
    have key : ∀ p < 2, ∀ q < 2, p ≠ q → ∀ c ∈ overlapLayout.copies q, ∀ c' ∈ overlapLayout.copies p, c'.ent = c.ent → c'.ib = true →
        (⟨p, q, c⟩ : Msg) ∈ overlapRankMsgs := by decide
    obtain ⟨c', h5, h6, h7⟩ := h5
    exact key p h1 q h2 h3 c h4 c' h5 h6 h7

/-- A solver without division (one step of a damped Richardson iteration) on the example with overlap. -/
example : Proper (K := ℤ) 0 startRoles (.applyscaleadd (-1) 0 1 <| .prec 2 1 <| .dot 2 1 fun a => .axpy 0 a 2 .done) :=
  .applyscaleadd rfl rfl <| .prec (by simp) <| .dot (by simp) (by simp) fun _ => .axpy (by simp [startRoles]) <| .done (by simp [startRoles])

/-- All hypotheses of `C231_overlapping_subdomain` hold for the example with overlap and local solvers `b ↦ (p+1) b`. -/
example {P : Solver ℤ} (hP : Proper 0 startRoles P) :
    ∃ z Z l, run (ovlpSubdomain overlapLayout (allMessages overlapLayout all all) (rankPartition overlapLayout overlapRankMsgs) overlapCC laplaceLocal
        fun p b i => (p + 1) * b i) P (fun j => if j = 0 then (fun p i => ((vertex p i) ^ 2 : ℤ)) else fun _ _ => 1) = some (z, l) ∧
      run (eliminated [0, 1, 2, 3, 4] (fun _ => 1) (globalMatrix {0, 1, 2, 3} laplace) (fun e _ => e = 0 ∨ e = 4)
        (schwarz overlapLayout [0, 1, 2, 3, 4] (fun _ => 1) overlapCC fun p b i => (p + 1) * b i)) P
        (fun j => if j = 0 then (fun e _ => (e ^ 2 : ℤ)) else fun _ _ => 1) = some (Z, l) ∧
      ConsistentOn overlapLayout all (z 0) (Z 0) :=
  C231_overlapping_subdomain overlapValid overlapFull overlapInterface overlapAll overlapAssembled overlapConstrained _
    (fun p _ d d' h i hi => by rw [h i hi]) hP overlapConsistent fun _ _ _ _ _ _ _ _ => rfl

/-- Two steps of conjugate gradients on two processes with a common vertex: the global matrix has the rows `2 -1 0`, `-1 4 -1`, `0 -1 2`, the right-hand
sides of the processes add up to `1 2 1`. The result is `1 1 1`. -/
example : (run (novlpJacobi borderLayout (allMessages borderLayout Copy.ib Copy.ib) (fun p => [p * 0, if p = 0 then 0 else 1])
      (fun _ i j => if i = j then (2 : ℚ) else -1) fun a => a⁻¹) (cg (fun _ d => decide (d = 0)) 5)
      (fun j => if j = 0 then fun _ _ => 0 else fun _ _ => 1)).map (fun r => (List.range 2).map fun p => (List.range 2).map (r.1 0 p)) =
    some [[1, 1], [1, 1]] := by decide +kernel

end Verif
