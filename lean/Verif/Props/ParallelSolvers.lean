import Verif.Proofs.ParallelSolvers
import Mathlib.Algebra.Order.BigOperators.Group.Finset
import Mathlib.Tactic.Linarith
import Mathlib.Tactic.NormNum
import Mathlib.Tactic.FieldSimp
import Mathlib.Algebra.Field.Rat
import Mathlib.Algebra.Order.Ring.Rat
/-
C136: the operator of the nonoverlapping solvers.
C137: the operator of the overlapping solvers.
C138: additive Schwarz preconditioners.
C139: the restricted additive Schwarz preconditioner.
C140: the nonoverlapping Jacobi preconditioner.
C141: scalar products and norms of the parallel backends.
C142: the explicit diagonal solvers.
C143: the partitions of unity.

`Valid L ents ndof ib` describes a distributed grid with a function space (`Spec/ParallelHelper.lean`), `Exchange L f g msgs` the messages of one
communication in any order of delivery.
-/
namespace Verif

open ParallelHelper ParallelHelper.Spec ParallelSolvers ParallelSolvers.Spec

section
variable {L : Layout} {ents : List Nat} {ndof : Nat → Nat} {ib : Bool}

section
variable {K : Type} [CommRing K]

/-! ### C136 -/

/-- C136. For every distribution, order of delivery, and vector consistent on interior and border, the nonoverlapping operator succeeds and
gives, on all interior and border copies, the product of the sum of all local matrices with the global vector. -/
theorem C136_apply (hv : Valid L ents ndof ib) {msgs : List Message} (hm : Exchange L Copy.ib Copy.ib msgs) (A : Nat → Nat → Nat → K)
    (hA : ∀ p, p < L.procs → ∀ c ∈ L.copies p, c.ib = false → ∀ j ∈ c.dofs, ∀ i, A p i j = 0) {x : Vecs K} {X : Nat → Nat → K}
    (hx : ConsistentOn L Copy.ib x X) :
    ∃ y, novlpApply L msgs A x = some y ∧ ConsistentOn L Copy.ib y (globalMv ents ndof (totalMatrix L Copy.ib A) X) := by
  obtain ⟨y, h1, h2⟩ := addUp_total hv hm (fits_ib hv hm) (fun p => mv (L.size p) (A p) (x p))
  refine ⟨y, h1, ?_⟩
  intro p hp c hc hf k i hk
  rw [h2 p hp c hc hf k i hk, total_mv hv hx A hA]

/-- C136, part: if the second vector is given by summands (as residuals are), scaled addition gives on all interior and border copies the
sum of the global vector and the scaled global product. Missing: a second vector that is consistent already. -/
theorem C136_applyscaleadd_partial (hv : Valid L ents ndof ib) {msgs : List Message} (hm : Exchange L Copy.ib Copy.ib msgs) (A : Nat → Nat → Nat → K)
    (hA : ∀ p, p < L.procs → ∀ c ∈ L.copies p, c.ib = false → ∀ j ∈ c.dofs, ∀ i, A p i j = 0) {x : Vecs K} {X : Nat → Nat → K}
    (hx : ConsistentOn L Copy.ib x X) (a : K) (y : Vecs K) :
    ∃ y', novlpApplyscaleadd L msgs a A x y = some y' ∧ ConsistentOn L Copy.ib y' fun e k =>
      total L Copy.ib y e k + a * globalMv ents ndof (totalMatrix L Copy.ib A) X e k := by
  obtain ⟨y', h1, h2⟩ := addUp_total hv hm (fits_ib hv hm) (fun p => usmv (L.size p) a (A p) (x p) (y p))
  refine ⟨y', h1, ?_⟩
  intro p hp c hc hf k i hk
  rw [h2 p hp c hc hf k i hk]
  simp only [usmv_eq]
  rw [total_add (L := L) Copy.ib y (fun p i => a * mv (L.size p) (A p) (x p) i), total_smul Copy.ib a (fun p => mv (L.size p) (A p) (x p)), total_mv hv hx A hA]

/-! ### C137 -/

/-- C137. On every process, the overlapping operator gives zero at the constrained DOFs and, at all others, the product of the global matrix
with the global vector. -/
theorem C137_apply (hv : Valid L ents ndof ib) {cc : Nat → List Nat} {A : Nat → Nat → Nat → K} {allCells : Finset Nat} {cells : Nat → Finset Nat}
    {M : Nat → Nat → Nat → Nat → Nat → K} (hA : Assembled L cc A allCells cells M) {x : Vecs K} {X : Nat → Nat → K} (hx : ConsistentOn L all x X)
    {p : Nat} (hp : p < L.procs) {c : Copy} (hc : c ∈ L.copies p) {k i : Nat} (hk : c.dofs[k]? = some i) :
    ovlpApply L cc A x p i = if i ∈ cc p then 0 else globalMv ents ndof (globalMatrix allCells M) X c.ent k := by
  unfold ovlpApply
  rw [zeroConstrained_eq]
  by_cases hi : i ∈ cc p
  · rw [if_pos hi, if_pos hi]
  · rw [if_neg hi, if_neg hi]
    unfold mv
    rw [mv_eq hv hx hp (A p i) (fun c _ hf => by cases hf)]
    unfold globalMv
    refine sumDofs_congr ?_
    intro e' _ k' _
    congr 1
    have hpos : pos L all p c.ent k = some i := by rw [pos_eq hv hp hc rfl k, hk]
    have hsub : globalMatrix allCells M c.ent k e' k' = ∑ t ∈ cells p, M t c.ent k e' k' := by
      unfold globalMatrix
      symm
      exact Finset.sum_subset (hA.sub p hp) (fun t ht hn => hA.complete p hp c.ent k i hpos hi t ht hn e' k')
    rw [hsub]
    cases hpos' : pos L all p e' k' with
    | some j => exact hA.entry p hp c.ent k i e' k' j hpos hi hpos'
    | none =>
      simp only [Option.elim]
      symm
      refine Finset.sum_eq_zero ?_
      intro t ht
      by_contra hne
      obtain ⟨j, hj⟩ := hA.closed p hp t ht c.ent k e' k' hne
      rw [hj] at hpos'
      cases hpos'

/-- C137. Scaled addition gives zero at constrained DOFs and adds the scaled global product to the second vector at all others. -/
theorem C137_applyscaleadd (hv : Valid L ents ndof ib) {cc : Nat → List Nat} {A : Nat → Nat → Nat → K} {allCells : Finset Nat}
    {cells : Nat → Finset Nat} {M : Nat → Nat → Nat → Nat → Nat → K} (hA : Assembled L cc A allCells cells M) {x : Vecs K} {X : Nat → Nat → K}
    (hx : ConsistentOn L all x X) (a : K) (y : Vecs K) {p : Nat} (hp : p < L.procs) {c : Copy} (hc : c ∈ L.copies p) {k i : Nat}
    (hk : c.dofs[k]? = some i) :
    ovlpApplyscaleadd L cc a A x y p i = if i ∈ cc p then 0 else y p i + a * globalMv ents ndof (globalMatrix allCells M) X c.ent k := by
  have h := C137_apply hv hA hx hp hc hk
  unfold ovlpApply at h
  unfold ovlpApplyscaleadd
  rw [zeroConstrained_eq] at h ⊢
  by_cases hi : i ∈ cc p
  · rw [if_pos hi, if_pos hi]
  · rw [if_neg hi, if_neg hi] at h
    rw [if_neg hi, if_neg hi, usmv_eq]
    simp only
    rw [h]

/-! ### C138 -/

/-- C138. For every order of delivery, the wrapped preconditioner succeeds; its result is consistent on all copies: the sum over the
processes of the results of the local preconditioners for the defect with zero at the constrained DOFs. -/
theorem C138_wrapped (hv : Valid L ents ndof ib) (hfull : Full L ndof) {msgs : List Message} (hm : Exchange L all all msgs) (cc : Nat → List Nat)
    (prec : Nat → (Nat → K) → (Nat → K) → Nat → K) (v d : Vecs K) :
    ∃ y, wrappedApply L msgs cc prec v d = some y ∧
      ConsistentOn L all y (total L all fun p => prec p (v p) fun i => if i ∈ cc p then 0 else d p i) := by
  obtain ⟨y, h1, h2⟩ := addUp_total hv hm (fits_full hfull hm) (fun p => prec p (v p) (zeroConstrained (cc p) (d p)))
  refine ⟨y, h1, ?_⟩
  have : (fun p => prec p (v p) (zeroConstrained (cc p) (d p))) = fun p => prec p (v p) fun i => if i ∈ cc p then 0 else d p i := by
    funext p
    congr 1
    funext i
    exact zeroConstrained_eq (cc p) (d p) i
  rw [this] at h2
  exact h2

/-- C138. The same for the exact subdomain solvers. -/
theorem C138_subdomain (hv : Valid L ents ndof ib) (hfull : Full L ndof) {msgs : List Message} (hm : Exchange L all all msgs)
    (solve : Nat → (Nat → K) → Nat → K) (d : Vecs K) :
    ∃ y, subdomainApply L msgs solve d = some y ∧ ConsistentOn L all y (total L all fun p => solve p (d p)) :=
  addUp_total hv hm (fits_full hfull hm) (fun p => solve p (d p))

/-- The bilinear form of the local preconditioners. -/
private theorem wrapped_form (hv : Valid L ents ndof ib) (hfull : Full L ndof) {msgs : List Message} (hm : Exchange L all all msgs)
    (cc : Nat → List Nat) (B : Nat → Nat → Nat → K) (hzero : ∀ p, p < L.procs → ∀ i ∈ cc p, ∀ j, j ∉ cc p → B p i j = 0) (v : Vecs K) {d d' : Vecs K}
    {D D' : Nat → Nat → K} (_hd : ConsistentOn L all d D) (hd' : ConsistentOn L all d' D') :
    ∃ y Y, wrappedApply L msgs cc (fun p _ b => mv (L.size p) (B p) b) v d = some y ∧ ConsistentOn L all y Y ∧
      sumDofs ents ndof (fun e k => Y e k * D' e k) = ∑ p ∈ Finset.range L.procs, ∑ i ∈ Finset.range (L.size p), ∑ j ∈ Finset.range (L.size p),
        (if i ∈ cc p then 0 else d' p i) * B p i j * (if j ∈ cc p then 0 else d p j) := by
  obtain ⟨y, h1, h2⟩ := C138_wrapped hv hfull hm cc (fun p _ b => mv (L.size p) (B p) b) v d
  refine ⟨y, _, h1, h2, ?_⟩
  rw [pairing hv _ hd']
  refine Finset.sum_congr rfl ?_
  intro p hp
  rw [Finset.mem_range] at hp
  refine Finset.sum_congr rfl ?_
  intro i _
  unfold mv
  rw [Finset.sum_mul]
  refine Finset.sum_congr rfl ?_
  intro j _
  by_cases hj : j ∈ cc p
  · simp [hj]
  · by_cases hi : i ∈ cc p
    · simp [hi, hj, hzero p hp i hi j hj]
    · simp only [hi, hj, if_false]
      ring

/-- C138. If the local preconditioners are given by symmetric matrices that leave zeros at constrained DOFs, the preconditioner is symmetric with
respect to the global scalar product. -/
theorem C138_symmetric (hv : Valid L ents ndof ib) (hfull : Full L ndof) {msgs : List Message} (hm : Exchange L all all msgs) (cc : Nat → List Nat)
    (B : Nat → Nat → Nat → K) (hzero : ∀ p, p < L.procs → ∀ i ∈ cc p, ∀ j, j ∉ cc p → B p i j = 0)
    (hsym : ∀ p, p < L.procs → ∀ i j, i ∉ cc p → j ∉ cc p → B p i j = B p j i) (v v' : Vecs K) {d d' : Vecs K} {D D' : Nat → Nat → K}
    (hd : ConsistentOn L all d D) (hd' : ConsistentOn L all d' D') :
    ∃ y Y y' Y', wrappedApply L msgs cc (fun p _ b => mv (L.size p) (B p) b) v d = some y ∧ ConsistentOn L all y Y ∧
      wrappedApply L msgs cc (fun p _ b => mv (L.size p) (B p) b) v' d' = some y' ∧ ConsistentOn L all y' Y' ∧
      sumDofs ents ndof (fun e k => Y e k * D' e k) = sumDofs ents ndof (fun e k => D e k * Y' e k) := by
  obtain ⟨y, Y, h1, h2, h3⟩ := wrapped_form hv hfull hm cc B hzero v hd hd'
  obtain ⟨y', Y', h1', h2', h3'⟩ := wrapped_form hv hfull hm cc B hzero v' hd' hd
  refine ⟨y, Y, y', Y', h1, h2, h1', h2', ?_⟩
  have hcomm : sumDofs ents ndof (fun e k => D e k * Y' e k) = sumDofs ents ndof (fun e k => Y' e k * D e k) :=
    sumDofs_congr fun e _ k _ => mul_comm _ _
  rw [hcomm, h3, h3']
  refine Finset.sum_congr rfl ?_
  intro p hp
  rw [Finset.mem_range] at hp
  rw [Finset.sum_comm]
  refine Finset.sum_congr rfl ?_
  intro j _
  refine Finset.sum_congr rfl ?_
  intro i _
  by_cases hi : i ∈ cc p
  · simp [hi]
  · by_cases hj : j ∈ cc p
    · simp [hj]
    · simp only [hi, hj, if_false]
      rw [hsym p hp i j hi hj]
      ring

/-- C138. If the local preconditioners are positive semidefinite, too, so is the preconditioner. -/
theorem C138_positive {K : Type} [CommRing K] [LinearOrder K] [IsStrictOrderedRing K] (hv : Valid L ents ndof ib) (hfull : Full L ndof)
    {msgs : List Message} (hm : Exchange L all all msgs) (cc : Nat → List Nat) (B : Nat → Nat → Nat → K)
    (hzero : ∀ p, p < L.procs → ∀ i ∈ cc p, ∀ j, j ∉ cc p → B p i j = 0)
    (hpos : ∀ p, p < L.procs → ∀ u : Nat → K, 0 ≤ ∑ i ∈ Finset.range (L.size p), ∑ j ∈ Finset.range (L.size p), u i * B p i j * u j)
    (v : Vecs K) {d : Vecs K} {D : Nat → Nat → K} (hd : ConsistentOn L all d D) :
    ∃ y Y, wrappedApply L msgs cc (fun p _ b => mv (L.size p) (B p) b) v d = some y ∧ ConsistentOn L all y Y ∧
      0 ≤ sumDofs ents ndof (fun e k => Y e k * D e k) := by
  obtain ⟨y, Y, h1, h2, h3⟩ := wrapped_form hv hfull hm cc B hzero v hd hd
  refine ⟨y, Y, h1, h2, ?_⟩
  rw [h3]
  refine Finset.sum_nonneg ?_
  intro p hp
  exact hpos p (Finset.mem_range.1 hp) (fun i => if i ∈ cc p then 0 else d p i)

/-! ### C139 -/

/-- C139. For every order of delivery, the restricted preconditioner succeeds; on every copy of an entity, its result is the value computed
by the process owning the entity. -/
theorem C139_owner (hv : Valid L ents ndof ib) {rmsgs : List Msg} (hr : Interface L ib rmsgs) {msgs : List Message}
    (hm : Exchange L Copy.ib all msgs) (solve : Nat → (Nat → K) → Nat → K) (d : Vecs K) :
    ∃ y, restrictedApply L msgs (rankPartition L rmsgs) solve d = some y ∧ ∀ p, p < L.procs → ∀ c ∈ L.copies p, ∀ k i : Nat, c.dofs[k]? = some i →
      ∃ o c' i', Lowest L c.ent o ∧ c' ∈ L.copies o ∧ c'.ent = c.ent ∧ c'.dofs[k]? = some i' ∧ y p i = solve o (d o) i' := by
  have owner : ∀ p, p < L.procs → ∀ c ∈ L.copies p, ∀ k i : Nat, c.dofs[k]? = some i → ∃ o c' i', Lowest L c.ent o ∧ c' ∈ L.copies o ∧ c'.ib = true ∧
      c'.ent = c.ent ∧ c'.dofs[k]? = some i' := by
    intro p hp c hc k i hk
    obtain ⟨o, ho⟩ := exists_lowest (hv.somewhere c.ent (hv.known p hp c hc))
    obtain ⟨c', hc', he, hib⟩ := ho.2.1
    have hlen : c'.dofs.length = ndof c'.ent := by
      rcases hv.dofs o ho.1 c' hc' with h | h
      · exact h
      · rw [h.1] at hib; cases hib
    have hk' : k < c'.dofs.length := by
      rw [hlen, he]
      exact (ndof_of_pos (f := all) (e := c.ent) (k := k) (i := i) hv hp (by rw [pos_eq hv hp hc rfl k, hk])).2
    exact ⟨o, c', c'.dofs[k], ho, hc', hib, he, List.getElem?_eq_getElem hk'⟩
  unfold restrictedApply
  by_cases h1 : L.procs > 1
  · rw [if_pos h1]
    obtain ⟨y, hy, hval⟩ := communicate_add hv hm (fits_ib hv hm) (fun p => maskForeign (rankPartition L rmsgs) p (solve p (d p)))
    refine ⟨y, hy, ?_⟩
    intro p hp c hc k i hk
    obtain ⟨o, c', i', ho, hc', hib, he, hk'⟩ := owner p hp c hc k i hk
    refine ⟨o, c', i', ho, hc', he, hk', ?_⟩
    rw [hval p hp c hc rfl k i hk]
    -- the masked value on any process
    have hmask : ∀ q, q < L.procs → ∀ c'' ∈ L.copies q, c''.ent = c.ent → ∀ i'' : Nat, c''.dofs[k]? = some i'' →
        maskForeign (rankPartition L rmsgs) q (solve q (d q)) i'' = if q = o then solve q (d q) i'' else 0 := by
      intro q hq c'' hc'' he'' i'' hk''
      obtain ⟨r, hr1, hr2⟩ := rankPartition_eq hv hr hq hc'' (List.mem_of_getElem? hk'')
      rw [he''] at hr1
      have hro := lowest_unique hr1 ho
      subst hro
      unfold maskForeign owned
      rw [hr2]
      by_cases hqo : q = r
      · simp [hqo]
      · rw [if_neg (by simpa using fun h => hqo h.symm), if_neg hqo]
    rw [hmask p hp c hc rfl i hk]
    by_cases hpo : p = o
    · subst hpo
      rw [if_pos rfl, Finset.sum_eq_zero, add_zero]
      · have : c = c' := ent_unique (hv.once p hp) hc hc' he.symm
        subst this
        rw [hk] at hk'
        rw [Option.some.inj hk']
      · intro q hq
        rw [Finset.mem_range] at hq
        by_cases hqp : q = p
        · rw [if_neg (fun h => h hqp)]
        · rw [if_pos hqp]
          cases hpos : pos L Copy.ib q c.ent k with
          | none => rfl
          | some i'' =>
            obtain ⟨c'', hc'', _, he'', hk''⟩ := of_pos hpos
            simp only [Option.elim]
            rw [hmask q hq c'' hc'' he'' i'' hk'', if_neg hqp]
    · rw [if_neg hpo, zero_add, Finset.sum_eq_single o]
      · rw [if_pos (fun h => hpo h.symm), ← he, pos_eq hv ho.1 hc' hib k, hk']
        simp only [Option.elim]
        rw [hmask o ho.1 c' hc' he i' hk', if_pos rfl]
      · intro q hq hqo
        rw [Finset.mem_range] at hq
        by_cases hqp : q = p
        · rw [if_neg (fun h => h hqp)]
        · rw [if_pos hqp]
          cases hpos : pos L Copy.ib q c.ent k with
          | none => rfl
          | some i'' =>
            obtain ⟨c'', hc'', _, he'', hk''⟩ := of_pos hpos
            simp only [Option.elim]
            rw [hmask q hq c'' hc'' he'' i'' hk'', if_neg hqo]
      · intro h
        exact absurd (Finset.mem_range.2 ho.1) h
  · rw [if_neg h1]
    refine ⟨_, rfl, ?_⟩
    intro p hp c hc k i hk
    obtain ⟨o, c', i', ho, hc', hib, he, hk'⟩ := owner p hp c hc k i hk
    refine ⟨o, c', i', ho, hc', he, hk', ?_⟩
    have hpo : p = o := by have := ho.1; omega
    subst hpo
    have : c = c' := ent_unique (hv.once p hp) hc hc' he.symm
    subst this
    rw [hk] at hk'
    rw [Option.some.inj hk']

/-! ### C141 -/

/-- C141. For vectors that are consistent on interior and border, the parallel scalar product is the scalar product of the global vectors. -/
theorem C141_dot (hv : Valid L ents ndof ib) {rmsgs : List Msg} (hr : Interface L ib rmsgs) {x y : Vecs K} {X Y : Nat → Nat → K}
    (hx : ConsistentOn L Copy.ib x X) (hy : ConsistentOn L Copy.ib y Y) :
    dot L (rankPartition L rmsgs) x y = sumDofs ents ndof fun e k => X e k * Y e k := dot_eq hv hr hx hy

/-- C141. The norm of the nonoverlapping backends is the norm of the global vector of which the local vectors are the summands. -/
theorem C141_norm (hv : Valid L ents ndof ib) {rmsgs : List Msg} (hr : Interface L ib rmsgs) {msgs : List Message}
    (hm : Exchange L Copy.ib Copy.ib msgs) (x : Vecs K) :
    novlpNorm2 L msgs (rankPartition L rmsgs) x = some (sumDofs ents ndof fun e k => total L Copy.ib x e k * total L Copy.ib x e k) := by
  obtain ⟨y, h1, h2⟩ := addUp_total hv hm (fits_ib hv hm) x
  unfold novlpNorm2
  rw [h1]
  simp only [Option.map_some]
  rw [dot_eq hv hr h2 h2]

end

/-! ### C140 -/

section
variable {B W : Type} [AddCommMonoid B]

/-- C140. For every order of delivery, the setup of the nonoverlapping Jacobi preconditioner succeeds and, on interior and border copies, its
blocks are the inverses of the diagonal blocks of the sum of all local matrices. -/
theorem C140_setup (hv : Valid L ents ndof ib) {msgs : List Message} (hm : Exchange L Copy.ib Copy.ib msgs) (inv : B → B) (A : Nat → Nat → Nat → B) :
    ∃ D, jacobiSetup msgs inv A = some D ∧ ConsistentOn L Copy.ib D fun e k => inv (total L Copy.ib (fun p i => A p i i) e k) := by
  obtain ⟨y, h1, h2⟩ := communicate_total hv hm (fits_ib hv hm) (fun p i => A p i i)
  unfold jacobiSetup
  rw [h1]
  refine ⟨_, rfl, ?_⟩
  intro p hp c hc hf k i hk
  simp only
  rw [h2 p hp c hc hf k i hk]

/-- C140. Applied to consistent vectors the preconditioner gives a consistent vector, on blocks the inverse of the summed diagonal block applied
to the block of the global vector. -/
theorem C140_consistent (hv : Valid L ents ndof ib) {msgs : List Message} (hm : Exchange L Copy.ib Copy.ib msgs) (inv : B → B) (A : Nat → Nat → Nat → B)
    (act : B → W → W) {d : Vecs W} {D : Nat → Nat → W} (hd : ConsistentOn L Copy.ib d D) :
    ∃ J, jacobiSetup msgs inv A = some J ∧ ConsistentOn L Copy.ib (jacobiApply act J d) fun e k =>
      act (inv (total L Copy.ib (fun p i => A p i i) e k)) (D e k) := by
  obtain ⟨J, h1, h2⟩ := C140_setup hv hm inv A
  refine ⟨J, h1, ?_⟩
  intro p hp c hc hf k i hk
  unfold jacobiApply
  rw [h2 p hp c hc hf k i hk, hd p hp c hc hf k i hk]

/-- C140. Applied to vectors given by summands, it gives summands of the same result. -/
theorem C140_additive [AddCommMonoid W] (hv : Valid L ents ndof ib) {msgs : List Message} (hm : Exchange L Copy.ib Copy.ib msgs) (inv : B → B)
    (A : Nat → Nat → Nat → B) (act : B → W → W) (h0 : ∀ b, act b 0 = 0) (hadd : ∀ b w w', act b (w + w') = act b w + act b w') (d : Vecs W) :
    ∃ J, jacobiSetup msgs inv A = some J ∧ ∀ e k, total L Copy.ib (jacobiApply act J d) e k =
      act (inv (total L Copy.ib (fun p i => A p i i) e k)) (total L Copy.ib d e k) := by
  obtain ⟨J, h1, h2⟩ := C140_setup hv hm inv A
  refine ⟨J, h1, ?_⟩
  intro e k
  have hsum : ∀ (b : B) (s : Finset Nat) (h : Nat → W), act b (∑ p ∈ s, h p) = ∑ p ∈ s, act b (h p) := by
    intro b s h
    induction s using Finset.cons_induction with
    | empty => simp [h0]
    | cons a s ha ih => rw [Finset.sum_cons, Finset.sum_cons, hadd, ih]
  unfold total
  rw [hsum]
  refine Finset.sum_congr rfl ?_
  intro p hp
  rw [Finset.mem_range] at hp
  cases hpos : pos L Copy.ib p e k with
  | none => simp [h0]
  | some i =>
    obtain ⟨c, hc, hf, rfl, hk⟩ := of_pos hpos
    simp only [Option.elim]
    unfold jacobiApply
    rw [h2 p hp c hc hf k i hk]
    rfl

end

/-! ### C142 -/

section
variable {K : Type} [Field K]

/-- C142, part: the explicit diagonal solver of the nonoverlapping backends solves the global diagonal system at the DOFs that are interior or
border on a single process. Missing: DOFs on the border of several processes. -/
theorem C142_novlp_partial (hv : Valid L ents ndof ib) {msgs : List Message} (hm : Exchange L Copy.ib Copy.ib msgs) (A : Nat → Nat → Nat → K) (r : Vecs K) :
    ∃ z, novlpExplicit L msgs A r = some z ∧ ∀ p, p < L.procs → ∀ c ∈ L.copies p, c.ib = true → ∀ k i : Nat, c.dofs[k]? = some i →
      (∀ q, q < L.procs → q ≠ p → pos L Copy.ib q c.ent k = none) →
      z p i = total L Copy.ib r c.ent k / total L Copy.ib (fun p i => A p i i) c.ent k := by
  obtain ⟨z, h1, h2⟩ := addUp_total hv hm (fits_ib hv hm) (fun p i => r p i / A p i i)
  refine ⟨z, h1, ?_⟩
  intro p hp c hc hf k i hk honly
  have single : ∀ x : Vecs K, total L Copy.ib x c.ent k = x p i := by
    intro x
    unfold total
    rw [Finset.sum_eq_single p]
    · rw [pos_eq hv hp hc hf k, hk]; rfl
    · intro q hq hne
      rw [honly q (Finset.mem_range.1 hq) hne]; rfl
    · intro h; exact absurd (Finset.mem_range.2 hp) h
  rw [h2 p hp c hc hf k i hk, single, single, single]

/-- The delivery of copies of consistent values. -/
private theorem communicate_copy {V : Type} (hv : Valid L ents ndof ib) {msgs : List Message} (hm : Exchange L Copy.ib all msgs) {x : Vecs V}
    {X : Nat → Nat → V} (hx : ConsistentOn L Copy.ib x X) : ∃ y, communicate scatterCopy msgs x = some y ∧ ConsistentOn L all y X := by
  refine ⟨_, communicate_eq scatterCopy (fun _ _ => rfl) x msgs (fits_ib hv hm) x, ?_⟩
  intro p hp c hc _ k i hk
  have key := foldl_invariant (fun (done : List Message) (s : Vecs V) => (∀ m ∈ done, m ∈ msgs) →
      (c.ib = true ∨ ∃ m ∈ done, m.dst = p ∧ m.received = c) → s p i = X c.ent k) (after scatterCopy x)
    (by
      intro done s m ih hdone hrel
      have hm' := hdone m (by simp)
      obtain ⟨h1, h2, h3, h4, h5, h6, h7, _⟩ := (hm.2 m).1 hm'
      unfold after
      by_cases hd : m.dst = p
      · rw [if_pos hd.symm]
        rw [hd] at h5
        by_cases hrc : m.received = c
        · have hlen : c.dofs.length = m.sent.dofs.length := by
            rcases fits_ib hv hm m hm' with h | h
            · rw [hrc] at h; rw [h] at hk; simp at hk
            · rw [← hrc]; exact h
          have hlt : k < m.sent.dofs.length := by rw [← hlen]; exact (List.getElem?_eq_some_iff.1 hk).1
          have hget := List.getElem?_eq_getElem hlt
          rw [hrc, scatterCopy_at c.dofs _ _ i k (x m.src (m.sent.dofs[k])) (nodup_of_mem (dofs_nodup hv hp) hc) hk (by simp [hget])]
          rw [hx m.src h1 m.sent h4 h7 k _ hget, h6, hrc]
        · rw [scatterCopy_other]
          · refine ih (fun m' h => hdone m' (by simp [h])) ?_
            rcases hrel with h | ⟨m', hm', hr⟩
            · exact Or.inl h
            · rcases List.mem_append.1 hm' with h | h
              · exact Or.inr ⟨m', h, hr⟩
              · rw [List.mem_singleton] at h
                subst h
                exact absurd hr.2 hrc
          · intro hi
            exact hrc (unique_of_mem (dofs_nodup hv hp) h5 hc hi (List.mem_of_getElem? hk))
      · rw [if_neg (fun h => hd h.symm)]
        refine ih (fun m' h => hdone m' (by simp [h])) ?_
        rcases hrel with h | ⟨m', hm', hr⟩
        · exact Or.inl h
        · rcases List.mem_append.1 hm' with h | h
          · exact Or.inr ⟨m', h, hr⟩
          · rw [List.mem_singleton] at h
            subst h
            exact absurd hr.1 hd)
    msgs [] x (by
      intro _ h
      rcases h with h | ⟨m, hm, _⟩
      · exact hx p hp c hc h k i hk
      · simp at hm)
  rw [List.nil_append] at key
  refine key (fun m h => h) ?_
  cases hib : c.ib with
  | true => exact Or.inl rfl
  | false =>
    right
    obtain ⟨q, hq, c', hc', he, hib'⟩ := hv.somewhere c.ent (hv.known p hp c hc)
    have hqp : q ≠ p := by
      intro h
      subst h
      rw [ent_unique (hv.once q hq) hc' hc he, hib] at hib'
      cases hib'
    exact ⟨⟨q, p, c', c⟩, (hm.2 _).2 ⟨hq, hp, hqp, hc', hc, he, hib', rfl⟩, rfl, rfl⟩

/-- C142. If the residual and the diagonal of the matrix are consistent on interior and border copies, the explicit diagonal solver of the
overlapping backends gives the solution of the global diagonal system on all copies. -/
theorem C142_ovlp (hv : Valid L ents ndof ib) {msgs : List Message} (hm : Exchange L Copy.ib all msgs) (A : Nat → Nat → Nat → K) (r : Vecs K)
    {R D : Nat → Nat → K} (hr : ConsistentOn L Copy.ib r R) (hD : ConsistentOn L Copy.ib (fun p i => A p i i) D) :
    ∃ z, ovlpExplicit L msgs A r = some z ∧ ConsistentOn L all z fun e k => R e k / D e k := by
  have hz : ConsistentOn L Copy.ib (fun p i => r p i / A p i i) fun e k => R e k / D e k := by
    intro p hp c hc hf k i hk
    have := hD p hp c hc hf k i hk
    simp only at this
    simp only
    rw [hr p hp c hc hf k i hk, this]
  unfold ovlpExplicit
  by_cases hone : L.procs > 1
  · simp only [hone, if_true]
    exact communicate_copy hv hm hz
  · simp only [hone, if_false]
    refine ⟨_, rfl, ?_⟩
    intro p hp c hc _ k i hk
    refine hz p hp c hc ?_ k i hk
    obtain ⟨q, hq, c', hc', he, hib⟩ := hv.somewhere c.ent (hv.known p hp c hc)
    have : q = p := by omega
    subst this
    rw [← ent_unique (hv.once q hq) hc' hc he]
    exact hib

end

/-! ### C143 -/

section
variable {K : Type} [Field K] [LinearOrder K] [IsStrictOrderedRing K]

/-- C143. For every order of delivery, the standard partition of unity is computed without exception: it is zero at constrained DOFs and
`1/n` at the others, where `n` is the number of processes with the DOF on which it is not constrained. -/
theorem C143_standard (hv : Valid L ents ndof ib) (hfull : Full L ndof) {msgs : List Message} (hm : Exchange L all all msgs) (cc : Nat → List Nat) :
    ∃ u : Vecs K, standardUnity msgs cc = some u ∧ ∀ p, p < L.procs → ∀ c ∈ L.copies p, ∀ k i : Nat, c.dofs[k]? = some i →
      u p i = if i ∈ cc p then 0 else
        1 / (((Finset.range L.procs).filter fun q => ∃ j, pos L all q c.ent k = some j ∧ j ∉ cc q).card : K) := by
  obtain ⟨s, h1, h2⟩ := communicate_total hv hm (fits_full hfull hm) (fun p => zeroConstrained (cc p) fun _ => (1 : K))
  unfold standardUnity
  rw [h1]
  refine ⟨_, rfl, ?_⟩
  intro p hp c hc k i hk
  simp only
  rw [zeroConstrained_eq]
  by_cases hi : i ∈ cc p
  · simp [hi]
  · simp only [hi, if_false]
    have hcount : s p i = (((Finset.range L.procs).filter fun q => ∃ j, pos L all q c.ent k = some j ∧ j ∉ cc q).card : K) := by
      rw [h2 p hp c hc rfl k i hk, Finset.card_filter]
      push_cast
      unfold total
      refine Finset.sum_congr rfl ?_
      intro q _
      cases hpos : pos L all q c.ent k with
      | none => simp
      | some j =>
        simp only [Option.elim]
        rw [zeroConstrained_eq]
        by_cases hj : j ∈ cc q <;> simp [hj]
    rw [hcount, if_pos]
    have : p ∈ (Finset.range L.procs).filter fun q => ∃ j, pos L all q c.ent k = some j ∧ j ∉ cc q :=
      Finset.mem_filter.2 ⟨Finset.mem_range.2 hp, i, by rw [pos_eq hv hp hc rfl k, hk], hi⟩
    exact_mod_cast Finset.card_pos.2 ⟨p, this⟩

/-- C143. The values of the standard partition of unity on all processes add up to one at every DOF that is unconstrained on some process. -/
theorem C143_standard_sum (hv : Valid L ents ndof ib) (hfull : Full L ndof) {msgs : List Message} (hm : Exchange L all all msgs) (cc : Nat → List Nat) :
    ∃ u : Vecs K, standardUnity msgs cc = some u ∧ ∀ e k, (∃ p, p < L.procs ∧ ∃ i, pos L all p e k = some i ∧ i ∉ cc p) → total L all u e k = 1 := by
  obtain ⟨u, h1, h2⟩ := C143_standard (K := K) hv hfull hm cc
  refine ⟨u, h1, ?_⟩
  rintro e k ⟨p, hp, i, hpi, hi⟩
  have hterm : ∀ q ∈ Finset.range L.procs, (pos L all q e k).elim 0 (u q) = if ∃ j, pos L all q e k = some j ∧ j ∉ cc q then
      1 / (((Finset.range L.procs).filter fun q => ∃ j, pos L all q e k = some j ∧ j ∉ cc q).card : K) else 0 := by
    intro q hq
    rw [Finset.mem_range] at hq
    cases hpos : pos L all q e k with
    | none => simp
    | some j =>
      obtain ⟨c, hc, _, rfl, hk⟩ := of_pos hpos
      simp only [Option.elim]
      rw [h2 q hq c hc k j hk]
      by_cases hj : j ∈ cc q <;> simp [hj]
  unfold total
  rw [Finset.sum_congr rfl hterm, ← Finset.sum_filter, Finset.sum_const, nsmul_eq_mul, mul_one_div, div_self]
  have : p ∈ (Finset.range L.procs).filter fun q => ∃ j, pos L all q e k = some j ∧ j ∉ cc q :=
    Finset.mem_filter.2 ⟨Finset.mem_range.2 hp, i, hpi, hi⟩
  exact_mod_cast (Finset.card_pos.2 ⟨p, this⟩).ne'

/-- C143. For every order of delivery, the values of the partition of unity according to Sarkis add up to one at every DOF for which no distance
is negative, some is positive and that of constrained copies is zero; the values at constrained DOFs are zero. -/
theorem C143_sarkis_sum (hv : Valid L ents ndof ib) (hfull : Full L ndof) {msgs : List Message} (hm : Exchange L all all msgs) (cc : Nat → List Nat)
    (dist : Vecs K) : ∃ u : Vecs K, sarkisUnity msgs cc dist = some u ∧ (∀ p i, i ∈ cc p → u p i = 0) ∧ ∀ e k,
      (∀ p, p < L.procs → ∀ i, pos L all p e k = some i → 0 ≤ dist p i ∧ (i ∈ cc p → dist p i = 0)) →
      (∃ p, p < L.procs ∧ ∃ i, pos L all p e k = some i ∧ 0 < dist p i) → total L all u e k = 1 := by
  obtain ⟨s, h1, h2⟩ := communicate_total hv hm (fits_full hfull hm) dist
  unfold sarkisUnity
  rw [h1]
  refine ⟨_, rfl, ?_, ?_⟩
  · intro p i hi
    simp only
    rw [zeroConstrained_eq, if_pos hi]
  · rintro e k hnn ⟨p, hp, i, hpi, hpos⟩
    have htot : 0 < total L all dist e k := by
      unfold total
      refine Finset.sum_pos' ?_ ⟨p, Finset.mem_range.2 hp, ?_⟩
      · intro q hq
        cases hq' : pos L all q e k with
        | none => simp
        | some j => exact (hnn q (Finset.mem_range.1 hq) j hq').1
      · rw [hpi]; exact hpos
    have hterm : ∀ q ∈ Finset.range L.procs, (pos L all q e k).elim 0
        (fun i => zeroConstrained (cc q) (fun i => if dist q i > 0 then dist q i * (1 / s q i) else dist q i) i) =
        (pos L all q e k).elim 0 (dist q) * (1 / total L all dist e k) := by
      intro q hq
      rw [Finset.mem_range] at hq
      cases hq' : pos L all q e k with
      | none => simp
      | some j =>
        simp only [Option.elim]
        rw [zeroConstrained_eq]
        obtain ⟨hn, hz⟩ := hnn q hq j hq'
        obtain ⟨c, hc, _, rfl, hk⟩ := of_pos hq'
        by_cases hj : j ∈ cc q
        · rw [if_pos hj, hz hj, zero_mul]
        · rw [if_neg hj]
          by_cases hd : dist q j > 0
          · rw [if_pos hd, h2 q hq c hc rfl k j hk]
          · rw [if_neg hd]
            have : dist q j = 0 := le_antisymm (not_lt.1 hd) hn
            rw [this, zero_mul]
    have hsum : total L all (fun q => zeroConstrained (cc q) fun i => if dist q i > 0 then dist q i * (1 / s q i) else dist q i) e k =
        ∑ q ∈ Finset.range L.procs, (pos L all q e k).elim 0 (dist q) * (1 / total L all dist e k) := Finset.sum_congr rfl hterm
    simp only
    rw [hsum, ← Finset.sum_mul]
    exact mul_one_div_cancel htot.ne'

/-- C143. The distance of Sarkis for the subdomain `(col,row)` with its overlap: it is not negative on the subdomain with overlap, positive on the
subdomain without overlap, and zero on the inner part of the boundary of the subdomain with overlap. -/
theorem C143_sarkis_distance {cellsX cellsY overlap partX partY col row : Nat} (hcol : col < partX) (hrow : row < partY) (hcx : 0 < cellsX)
    (hcy : 0 < cellsY) {x y hx hy : K} (hhx : hx = overlap / cellsX) (hhy : hy = overlap / cellsY) :
    let d : K := sarkisDistance cellsX cellsY overlap partX partY (row * partX + col) x y
    let inside (a b : K) : Prop := (col : K) / partX - a ≤ x ∧ x ≤ ((col + 1 : Nat) : K) / partX + a ∧ (row : K) / partY - b ≤ y ∧ y ≤ ((row + 1 : Nat) : K) / partY + b
    (inside hx hy → 0 ≤ d) ∧ (inside 0 0 → 0 < overlap → 0 < d) ∧ (inside hx hy →
      ((col + 1 < partX ∧ x = ((col + 1 : Nat) : K) / partX + hx) ∨ (0 < col ∧ x = (col : K) / partX - hx) ∨
       (row + 1 < partY ∧ y = ((row + 1 : Nat) : K) / partY + hy) ∨ (0 < row ∧ y = (row : K) / partY - hy)) → d = 0) := by
  have hpx : (0 : K) < partX := by exact_mod_cast (Nat.lt_of_le_of_lt (Nat.zero_le _) hcol)
  have hpy : (0 : K) < partY := by exact_mod_cast (Nat.lt_of_le_of_lt (Nat.zero_le _) hrow)
  have hHx : (0 : K) < 2 * (1 / partX) := by positivity
  have hHy : (0 : K) < 2 * (1 / partY) := by positivity
  have hxnn : 0 ≤ hx := by rw [hhx]; positivity
  have hynn : 0 ≤ hy := by rw [hhy]; positivity
  have hdiv : (row * partX + col) / partX = row := by
    rw [Nat.mul_comm, Nat.mul_add_div (by omega), Nat.div_eq_of_lt hcol, Nat.add_zero]
  have hsub : row * partX + col - partX * row = col := by rw [Nat.mul_comm row partX]; omega
  have e1 : ((col : K) + 1) * (1 / partX) = ((col + 1 : Nat) : K) / partX := by push_cast; ring
  have e2 : (col : K) * (1 / partX) = (col : K) / partX := by ring
  have e3 : ((row : K) + 1) * (1 / partY) = ((row + 1 : Nat) : K) / partY := by push_cast; ring
  have e4 : (row : K) * (1 / partY) = (row : K) / partY := by ring
  intro d inside
  have hd : d = min (min (min (if col = partX - 1 then 2 * (1 / (partX : K)) else ((col + 1 : Nat) : K) / partX + hx - x)
      (if col = 0 then 2 * (1 / (partX : K)) else x - ((col : K) / partX - hx)))
      (if row = partY - 1 then 2 * (1 / (partY : K)) else ((row + 1 : Nat) : K) / partY + hy - y))
      (if row = 0 then 2 * (1 / (partY : K)) else y - ((row : K) / partY - hy)) := by
    simp only [d, sarkisDistance, hdiv, hsub, e1, e2, e3, e4, hhx, hhy]
  have hnn : inside hx hy → 0 ≤ d := by
    rintro ⟨h1, h2, h3, h4⟩
    rw [hd]
    refine le_min (le_min (le_min ?_ ?_) ?_) ?_ <;> split <;> first | exact hHx.le | exact hHy.le | linarith
  refine ⟨hnn, ?_, ?_⟩
  · rintro ⟨h1, h2, h3, h4⟩ hov
    have hov' : (0 : K) < overlap := by exact_mod_cast hov
    have hxp : 0 < hx := by rw [hhx]; exact div_pos hov' (by exact_mod_cast hcx)
    have hyp : 0 < hy := by rw [hhy]; exact div_pos hov' (by exact_mod_cast hcy)
    rw [hd]
    refine lt_min (lt_min (lt_min ?_ ?_) ?_) ?_ <;> split <;> first | exact hHx | exact hHy | linarith
  · intro hin hb
    refine le_antisymm ?_ (hnn hin)
    rw [hd]
    rcases hb with ⟨h, hx'⟩ | ⟨h, hx'⟩ | ⟨h, hy'⟩ | ⟨h, hy'⟩
    · refine le_trans (min_le_left _ _) (le_trans (min_le_left _ _) (le_trans (min_le_left _ _) ?_))
      rw [if_neg (by omega)]; linarith
    · refine le_trans (min_le_left _ _) (le_trans (min_le_left _ _) (le_trans (min_le_right _ _) ?_))
      rw [if_neg (by omega)]; linarith
    · refine le_trans (min_le_left _ _) (le_trans (min_le_right _ _) ?_)
      rw [if_neg (by omega)]; linarith
    · refine le_trans (min_le_right _ _) ?_
      rw [if_neg (by omega)]; linarith

/-- C143. Every point of the unit square is in one of the subdomains, so that one of the distances is positive if the overlap is. -/
theorem C143_sarkis_cover {cellsX cellsY overlap partX partY : Nat} (hpx : 0 < partX) (hpy : 0 < partY) (hcx : 0 < cellsX) (hcy : 0 < cellsY)
    (hov : 0 < overlap) {x y : K} (hx : 0 ≤ x ∧ x ≤ 1) (hy : 0 ≤ y ∧ y ≤ 1) :
    ∃ rank, rank < partX * partY ∧ 0 < sarkisDistance cellsX cellsY overlap partX partY rank x y := by
  have key : ∀ n : Nat, 0 < n → ∀ z : K, 0 ≤ z ∧ z ≤ 1 → ∃ c, c < n ∧ (c : K) / n ≤ z ∧ z ≤ ((c + 1 : Nat) : K) / n := by
    intro n hn z hz
    have hn' : (0 : K) < n := by exact_mod_cast hn
    have hex : ∃ m : Nat, z ≤ (m : K) / n := ⟨n, by rw [div_self hn'.ne']; exact hz.2⟩
    classical
    have hspec := Nat.find_spec hex
    have hle : Nat.find hex ≤ n := Nat.find_min' hex (by rw [div_self hn'.ne']; exact hz.2)
    rcases Nat.eq_zero_or_pos (Nat.find hex) with h0 | h0
    · rw [h0] at hspec
      refine ⟨0, hn, ?_, le_trans hspec ?_⟩
      · simpa using hz.1
      · simp only [Nat.cast_zero, zero_div]; positivity
    · refine ⟨Nat.find hex - 1, by omega, ?_, ?_⟩
      · exact le_of_lt (not_le.1 (Nat.find_min hex (m := Nat.find hex - 1) (by omega)))
      · rw [Nat.sub_add_cancel h0]; exact hspec
  obtain ⟨col, hcol, hx1, hx2⟩ := key partX hpx x hx
  obtain ⟨row, hrow, hy1, hy2⟩ := key partY hpy y hy
  refine ⟨row * partX + col, ?_, ?_⟩
  · have : (row + 1) * partX ≤ partY * partX := Nat.mul_le_mul_right _ hrow
    rw [Nat.mul_comm partX]
    have : row * partX + partX ≤ partY * partX := by rw [← Nat.succ_mul]; exact this
    omega
  · exact (C143_sarkis_distance (overlap := overlap) hcol hrow hcx hcy (x := x) (y := y) rfl rfl).2.1
      ⟨by simpa using hx1, by simpa using hx2, by simpa using hy1, by simpa using hy2⟩ hov

end
end

/-! ### Examples -/

/-- Four cells in a row with vertices 0, …, 4, distributed to two processes with one cell of overlap: process 0 has the cells 0, 1, 2, process 1 the
cells 1, 2, 3. Vertex 2 is border on both processes. -/
def overlapLayout : Layout where
  procs := 2
  copies := fun p => match p with
    | 0 => [⟨0, true, [0]⟩, ⟨1, true, [1]⟩, ⟨2, true, [2]⟩, ⟨3, false, [3]⟩]
    | 1 => [⟨4, true, [0]⟩, ⟨3, true, [1]⟩, ⟨2, true, [2]⟩, ⟨1, false, [3]⟩]
    | _ => []
  size := fun _ => 4

theorem overlapValid : Valid overlapLayout [0, 1, 2, 3, 4] (fun _ => 1) false where
  ranks := by decide
  positions := by decide
  once := by decide
  distinct := by decide
  known := by decide
  somewhere := by
    intro e he
    simp only [List.mem_cons, List.not_mem_nil, or_false] at he
    rcases he with rfl | rfl | rfl | rfl | rfl
    · exact ⟨0, by decide, ⟨0, true, [0]⟩, by decide, rfl, rfl⟩
    · exact ⟨0, by decide, ⟨1, true, [1]⟩, by decide, rfl, rfl⟩
    · exact ⟨1, by decide, ⟨2, true, [2]⟩, by decide, rfl, rfl⟩
    · exact ⟨1, by decide, ⟨3, true, [1]⟩, by decide, rfl, rfl⟩
    · exact ⟨1, by decide, ⟨4, true, [0]⟩, by decide, rfl, rfl⟩
  dofs := by decide
  restricted := by intro h; cases h

theorem overlapFull : Full overlapLayout fun _ => 1 := by
  unfold Full
  decide

/-- All messages of the example between copies with `f` and copies with `g`. -/
def allMessages (L : Layout) (f g : Copy → Bool) : List Message :=
  (List.range L.procs).flatMap fun p => (List.range L.procs).flatMap fun q => (L.copies p).flatMap fun c => (L.copies q).flatMap fun c' =>
    if p ≠ q ∧ c.ent = c'.ent ∧ f c = true ∧ g c' = true then [⟨p, q, c, c'⟩] else []

theorem exchange_all (L : Layout) (f g : Copy → Bool) (h : (allMessages L f g).Nodup) : Exchange L f g (allMessages L f g) := by
  refine ⟨h, ?_⟩
  intro m
  unfold allMessages
  simp only [List.mem_flatMap, List.mem_range]
  constructor
  · rintro ⟨p, hp, q, hq, c, hc, c', hc', hmem⟩
    split at hmem
    · next h =>
      rw [List.mem_singleton] at hmem
      subst hmem
      exact ⟨hp, hq, h.1, hc, hc', h.2.1, h.2.2.1, h.2.2.2⟩
    · simp at hmem
  · rintro ⟨h1, h2, h3, h4, h5, h6, h7, h8⟩
    refine ⟨m.src, h1, m.dst, h2, m.sent, h4, m.received, h5, ?_⟩
    rw [if_pos ⟨h3, h6, h7, h8⟩]
    simp

theorem overlapAll : Exchange overlapLayout all all (allMessages overlapLayout all all) := exchange_all _ _ _ (by decide)
private theorem overlapIbAll : Exchange overlapLayout Copy.ib all (allMessages overlapLayout Copy.ib all) := exchange_all _ _ _ (by decide)
private theorem overlapIb : Exchange overlapLayout Copy.ib Copy.ib (allMessages overlapLayout Copy.ib Copy.ib) := exchange_all _ _ _ (by decide)

/- The messages of the example. -/
example : allMessages overlapLayout Copy.ib Copy.ib = [⟨0, 1, ⟨2, true, [2]⟩, ⟨2, true, [2]⟩⟩, ⟨1, 0, ⟨2, true, [2]⟩, ⟨2, true, [2]⟩⟩] := by decide

/-- Boundary DOFs of the domain and of the overlapping subdomains. -/
def overlapCC : Nat → List Nat := fun _ => [0, 3]

/- The standard partition of unity of the example: 1/2 on both processes at vertex 2, 1 at vertex 1 on process 0 and at vertex 3 on process 1. -/
example : (standardUnity (K := ℚ) (allMessages overlapLayout all all) overlapCC).map (fun u => (List.range 2).map fun p => (List.range 4).map (u p)) =
    some [[0, 1, 1/2, 0], [0, 1, 1/2, 0]] := by decide +kernel

example : ∃ u : Vecs ℚ, standardUnity (allMessages overlapLayout all all) overlapCC = some u ∧ total overlapLayout all u 2 0 = 1 := by
  obtain ⟨u, h1, h2⟩ := C143_standard_sum (K := ℚ) overlapValid overlapFull overlapAll overlapCC
  exact ⟨u, h1, h2 2 0 ⟨0, by decide, 2, by decide, by decide⟩⟩

/-- The element matrices of the one-dimensional Laplace operator: cell `t` has the vertices `t` and `t+1`. -/
def laplace (t e k e' k' : Nat) : ℤ :=
  if k = 0 ∧ k' = 0 ∧ (e = t ∨ e = t + 1) ∧ (e' = t ∨ e' = t + 1) then (if e = e' then 1 else -1) else 0

/-- The vertices by position. -/
def vertex (p i : Nat) : Nat := if p = 0 then i else 4 - i

/-- The local matrices. -/
def laplaceLocal (p i j : Nat) : ℤ := ∑ t ∈ (if p = 0 then {0, 1, 2} else {1, 2, 3} : Finset Nat), laplace t (vertex p i) 0 (vertex p j) 0

theorem overlapPos {p e k i : Nat} (hp : p < 2) (h : pos overlapLayout all p e k = some i) : k = 0 ∧ i < 4 ∧ e = vertex p i := by
  obtain ⟨c, hc, _, rfl, hk⟩ := of_pos h
  have key : ∀ p < 2, ∀ c ∈ overlapLayout.copies p, c.dofs.length = 1 ∧ ∀ i ∈ c.dofs, i < 4 ∧ c.ent = vertex p i := by decide
  obtain ⟨h1, h2⟩ := key p hp c hc
  have hlt := (List.getElem?_eq_some_iff.1 hk).1
  exact ⟨by omega, h2 i (List.mem_of_getElem? hk)⟩

theorem overlapAssembled : Assembled overlapLayout overlapCC laplaceLocal {0, 1, 2, 3}
    (fun p => if p = 0 then {0, 1, 2} else {1, 2, 3}) laplace where
  sub := by decide
  entry := by
    intro p hp e k i e' k' j h _ h'
    obtain ⟨rfl, _, rfl⟩ := overlapPos hp h
    obtain ⟨rfl, _, rfl⟩ := overlapPos hp h'
    rfl
  complete := by
    intro p hp e k i h hi t ht htn e' k'
    obtain ⟨rfl, hi4, rfl⟩ := overlapPos hp h
    have key : ∀ p < 2, ∀ i < 4, ∀ t ∈ ({0, 1, 2, 3} : Finset Nat), i ∈ overlapCC p ∨ t ∈ (if p = 0 then {0, 1, 2} else {1, 2, 3} : Finset Nat) ∨
      ¬ (vertex p i = t ∨ vertex p i = t + 1) := by decide
    unfold laplace
    rw [if_neg]
    rintro ⟨_, _, h, _⟩
    rcases key p hp i hi4 t ht with h' | h' | h'
    · exact hi h'
    · exact htn h'
    · exact h' h
  closed := by
    intro p hp t ht e k e' k' hne
    unfold laplace at hne
    split at hne
    · next h =>
      obtain ⟨_, rfl, _, he'⟩ := h
      have key : ∀ p < 2, ∀ t ∈ (if p = 0 then {0, 1, 2} else {1, 2, 3} : Finset Nat), ∀ e' ∈ [t, t + 1], ∃ j, j < 4 ∧ pos overlapLayout all p e' 0 = some j := by
        decide
      obtain ⟨j, _, hj⟩ := key p hp t ht e' (by simpa using he')
      exact ⟨j, hj⟩
    · exact absurd rfl hne

/- The operator of the example applied to the vector with the value `e²` at vertex `e`. -/
example : (List.range 2).map (fun p => (List.range 4).map (ovlpApply overlapLayout overlapCC laplaceLocal (fun p i => ((vertex p i) ^ 2 : ℤ)) p)) =
    [[0, -2, -2, 0], [0, -2, -2, 0]] := by decide +kernel

theorem overlapConsistent : ConsistentOn overlapLayout all (fun p i => ((vertex p i) ^ 2 : ℤ)) (fun e _ => e ^ 2) := by
  intro p hp c hc _ k i hk
  have := (overlapPos hp (show pos overlapLayout all p c.ent k = some i by rw [pos_eq overlapValid hp hc rfl k, hk])).2.2
  simp only [this]

example : ovlpApply overlapLayout overlapCC laplaceLocal (fun p i => ((vertex p i) ^ 2 : ℤ)) 1 2 =
    globalMv [0, 1, 2, 3, 4] (fun _ => 1) (globalMatrix {0, 1, 2, 3} laplace) (fun e _ => e ^ 2) 2 0 :=
  C137_apply overlapValid overlapAssembled overlapConsistent (by decide) (c := ⟨2, true, [2]⟩) (by decide) (k := 0) rfl

/-- Two cells with the vertices 0, 1, 2, one cell on each of two processes; the common vertex 1 is border. -/
def borderLayout : Layout where
  procs := 2
  copies := fun p => match p with
    | 0 => [⟨0, true, [0]⟩, ⟨1, true, [1]⟩]
    | 1 => [⟨1, true, [0]⟩, ⟨2, true, [1]⟩]
    | _ => []
  size := fun _ => 2

private theorem borderValid : Valid borderLayout [0, 1, 2] (fun _ => 1) true where
  ranks := by decide
  positions := by decide
  once := by decide
  distinct := by decide
  known := by decide
  somewhere := by
    intro e he
    simp only [List.mem_cons, List.not_mem_nil, or_false] at he
    rcases he with rfl | rfl | rfl
    · exact ⟨0, by decide, ⟨0, true, [0]⟩, by decide, rfl, rfl⟩
    · exact ⟨0, by decide, ⟨1, true, [1]⟩, by decide, rfl, rfl⟩
    · exact ⟨1, by decide, ⟨2, true, [1]⟩, by decide, rfl, rfl⟩
  dofs := by decide
  restricted := by intro _; decide

private theorem borderIb : Exchange borderLayout Copy.ib Copy.ib (allMessages borderLayout Copy.ib Copy.ib) := exchange_all _ _ _ (by decide)

/-- The element matrix of the Laplace operator on each process. -/
def borderMatrix (_p i j : Nat) : ℚ := if i = j then 1 else -1

private theorem borderColumns : ∀ p, p < borderLayout.procs → ∀ c ∈ borderLayout.copies p, c.ib = false → ∀ j ∈ c.dofs, ∀ i, borderMatrix p i j = 0 := by
  intro p hp c hc hib
  have : ∀ p < 2, ∀ c ∈ borderLayout.copies p, c.ib = true := by decide
  rw [this p hp c hc] at hib
  cases hib

/- The operator and the norm for the values 0, 1, 4 at the vertices. -/
example : (novlpApply borderLayout (allMessages borderLayout Copy.ib Copy.ib) borderMatrix (fun p i => ((p + i) ^ 2 : ℚ))).map
    (fun y => (List.range 2).map fun p => (List.range 2).map (y p)) = some [[-1, -2], [-2, 3]] := by decide +kernel

example : novlpNorm2 borderLayout (allMessages borderLayout Copy.ib Copy.ib) (fun p => [0, if p = 0 then 0 else 1]) (fun _ _ => (1 : ℚ)) = some 6 := by
  decide +kernel

/- The Jacobi preconditioner: the diagonal is 1, 2, 1. -/
example : (jacobiSetup (allMessages borderLayout Copy.ib Copy.ib) (fun b => b⁻¹) borderMatrix).map
    (fun y => (List.range 2).map fun p => (List.range 2).map (y p)) = some [[1, 1/2], [1/2, 1]] := by decide +kernel

/- Additive and restricted Schwarz with the local preconditioners `2·` and `3·`. -/
example : (wrappedApply overlapLayout (allMessages overlapLayout all all) overlapCC (fun p _ b i => ((p : ℚ) + 2) * b i) (fun _ _ => 0) (fun _ _ => (1 : ℚ))).map
    (fun y => (List.range 2).map fun p => (List.range 4).map (y p)) = some [[0, 2, 5, 3], [0, 3, 5, 2]] := by decide +kernel

example : (restrictedApply overlapLayout (allMessages overlapLayout Copy.ib all) (fun p => if p = 0 then [0, 0, 0, 1] else [1, 1, 0, 0])
    (fun p b i => ((p : ℚ) + 2) * b i) (fun _ _ => (1 : ℚ))).map
    (fun y => (List.range 2).map fun p => (List.range 4).map (y p)) = some [[2, 2, 2, 3], [3, 3, 2, 2]] := by decide +kernel

/-- C136 fails for scaled addition to a consistent vector: at the border its values are added up. -/
theorem C136_applyscaleadd_false : ∃ (y : Vecs ℚ) (Y : Nat → Nat → ℚ), ConsistentOn borderLayout Copy.ib y Y ∧
    ∃ y', novlpApplyscaleadd borderLayout (allMessages borderLayout Copy.ib Copy.ib) (-1) borderMatrix (fun _ _ => 1) y = some y' ∧
      ¬ ConsistentOn borderLayout Copy.ib y' fun e k =>
        Y e k + -1 * globalMv [0, 1, 2] (fun _ => 1) (totalMatrix borderLayout Copy.ib borderMatrix) (fun _ _ => 1) e k := by
  refine ⟨fun _ _ => 1, fun _ _ => 1, fun _ _ _ _ _ _ _ _ => rfl, ?_⟩
  obtain ⟨y', h1, h2⟩ := C136_applyscaleadd_partial borderValid borderIb borderMatrix borderColumns (x := fun _ _ => 1) (X := fun _ _ => 1)
    (fun _ _ _ _ _ _ _ _ => rfl) (-1) (fun _ _ => 1)
  refine ⟨y', h1, ?_⟩
  intro h
  have a := h2 0 (by decide) ⟨1, true, [1]⟩ (by decide) rfl 0 1 rfl
  have b := h 0 (by decide) ⟨1, true, [1]⟩ (by decide) rfl 0 1 rfl
  rw [a] at b
  have hc : total borderLayout Copy.ib (fun _ _ => (1 : ℚ)) 1 0 = 2 := by decide +kernel
  simp only [hc] at b
  linarith

/-- C142 fails for the nonoverlapping backend at DOFs on the border of two processes: with residuals 1 and 1 and diagonals 1 and 1 the global
solution is 2/2 = 1, the result is 1/1 + 1/1 = 2. -/
theorem C142_novlp_false : ∃ z, novlpExplicit borderLayout (allMessages borderLayout Copy.ib Copy.ib) borderMatrix (fun _ _ => 1) = some z ∧
    ¬ ConsistentOn borderLayout Copy.ib z fun e k => total borderLayout Copy.ib (fun _ _ => (1 : ℚ)) e k /
      total borderLayout Copy.ib (fun p i => borderMatrix p i i) e k := by
  obtain ⟨z, h1, h2⟩ := addUp_total borderValid borderIb (fits_ib borderValid borderIb) (fun p i => (1 : ℚ) / borderMatrix p i i)
  refine ⟨z, h1, ?_⟩
  intro h
  have a := h2 0 (by decide) ⟨1, true, [1]⟩ (by decide) rfl 0 1 rfl
  have b := h 0 (by decide) ⟨1, true, [1]⟩ (by decide) rfl 0 1 rfl
  rw [a] at b
  have hc : total borderLayout Copy.ib (fun _ _ => (1 : ℚ)) 1 0 = 2 := by decide +kernel
  have hc' : total borderLayout Copy.ib (fun p i => borderMatrix p i i) 1 0 = 2 := by decide +kernel
  have hc'' : total borderLayout Copy.ib (fun p i => (1 : ℚ) / borderMatrix p i i) 1 0 = 2 := by decide +kernel
  simp only [hc, hc', hc''] at b
  norm_num at b

/- Sarkis: two subdomains in x direction, 8 cells, overlap 1; at the middle both distances are 1/8. -/
example : (sarkisDistance (K := ℚ) 8 8 1 2 1 0 (1/2) (1/2), sarkisDistance (K := ℚ) 8 8 1 2 1 1 (1/2) (1/2),
    sarkisDistance (K := ℚ) 8 8 1 2 1 0 (5/8) (1/2), sarkisDistance (K := ℚ) 8 8 1 2 1 1 (5/8) (1/2)) = (1/8, 1/8, 0, 1/4) := by decide +kernel

end Verif
