import Verif.Proofs.GenEO
import Verif.Props.ParallelHelper
import Verif.Props.ParallelSolvers
import Mathlib.Tactic.Ring
/-
C148: the coarse system of the two-level Schwarz preconditioner.
C149: restriction, prolongation and application of the two-level Schwarz preconditioner.
C150: the local bases from eigenvalue problems.
C151: the local operator restricted to the overlap.

`Valid L ents ndof ib` describes a distributed grid with a function space (`Spec/ParallelHelper.lean`), `Exchange L all all msgs` the messages of one
communication in any order of delivery.
-/
namespace Verif

open ParallelHelper ParallelHelper.Spec ParallelSolvers ParallelSolvers.Spec GenEO GenEO.Spec

section
variable {L : Layout} {ents : List Nat} {ndof : Nat → Nat} {ib : Bool}

section
variable {K : Type} [CommRing K] {cc : Nat → List Nat} {A : Nat → Nat → Nat → K} {allCells : Finset Nat} {cells : Nat → Finset Nat}
  {M : Nat → Nat → Nat → Nat → Nat → K}

/-! ### C148 -/

/-- C148. If the lists of neighbours are complete, the set-up succeeds for every order of delivery and every number of basis vectors on the processes. The
coarse matrix has one row for each basis vector; the entry for two basis vectors, extended by zero to the whole domain, is their product with the global matrix
(entries outside the pattern are zero), and the pattern has no other columns. -/
theorem C148_entries (hv : Valid L ents ndof ib) (hfull : Full L ndof) {nb : Nat → List Nat} (hnb : Neighbours L nb) {msgs : Nat → List Message}
    (hm : ∀ b, Exchange L all all (msgs b)) (hA : Assembled L cc A allCells cells M) {B : Basis K} (hB : Vanishing L cc B) :
    ∃ C, coarseSystem L nb msgs A B = some C ∧ C.length = ∑ p ∈ Finset.range L.procs, (B p).length ∧
      ∀ p, p < L.procs → ∀ (a : Nat) (v : Nat → K), (B p)[a]? = some v → ∃ row, C[number B p a]? = some row ∧
        (∀ q, q < L.procs → ∀ (b : Nat) (w : Nat → K), (B q)[b]? = some w →
          (row (number B q b)).getD 0 = energy ents ndof (globalMatrix allCells M) (extend L p v) (extend L q w)) ∧
        ∀ c, (row c).isSome → c < C.length := by
  obtain ⟨s, hs1, hs2⟩ := rounds_after hv hfull hnb hm hA hB (maxSize (fun p => (B p).length) L.procs)
  have hrows : ((List.range L.procs).mapM fun p => (List.range (B p).length).mapM fun a => rowOf nb B s p a) =
      some ((List.range L.procs).map fun p => (List.range (B p).length).map fun a => rowList L ents ndof allCells M nb B p a) := by
    refine mapM_some _ _ _ ?_
    intro p hp
    rw [List.mem_range] at hp
    refine mapM_some _ _ _ ?_
    intro a ha
    rw [List.mem_range] at ha
    exact rowOf_eq hnb (fun q hq => le_maxSize (fun p => (B p).length) hq) hs2 hp ha
  have hC : coarseSystem L nb msgs A B = some ((((List.range L.procs).map fun p => (List.range (B p).length).map fun a =>
      rowList L ents ndof allCells M nb B p a).flatten).map buildRow) := by
    unfold coarseSystem
    rw [hs1]
    show (do let rows ← ((List.range L.procs).mapM fun p => (List.range (B p).length).mapM fun a => rowOf nb B s p a)
             some (rows.flatten.map buildRow)) = _
    rw [hrows]
    rfl
  refine ⟨_, hC, ?_, ?_⟩
  · rw [List.length_map, blocks_length (fun p => (B p).length), offset_eq]
  · intro p hp a v hva
    have ha := (List.getElem?_eq_some_iff.1 hva).1
    refine ⟨buildRow (rowList L ents ndof allCells M nb B p a), ?_, ?_, ?_⟩
    · rw [List.getElem?_map, number_eq, blocks_get (fun p => (B p).length) _ _ hp ha]
      rfl
    · intro q hq b w hwb
      have hb := (List.getElem?_eq_some_iff.1 hwb).1
      obtain ⟨h1, h2, _⟩ := buildRow_rowList (L := L) (ents := ents) (ndof := ndof) (allCells := allCells) (M := M) (nb := nb) (B := B) (p := p) (a := a)
      rw [number_eq]
      by_cases hmem : q ∈ p :: nb p
      · rw [h1 q hmem b hb]
        unfold entry
        rw [basisVector_eq hva, basisVector_eq hwb]
        rfl
      · rw [h2 q hmem b hb]
        rw [List.mem_cons, not_or] at hmem
        symm
        refine energy_zero hA hp v w (fun i hi => hB p hp v (List.mem_of_getElem? hva) i hi) ?_
        intro hsh
        exact hmem.2 (hnb.all p q hp hq (Ne.symm hmem.1) hsh)
    · intro c hc
      obtain ⟨_, _, h3⟩ := buildRow_rowList (L := L) (ents := ents) (ndof := ndof) (allCells := allCells) (M := M) (nb := nb) (B := B) (p := p) (a := a)
      obtain ⟨q, hq, b, hb, rfl⟩ := h3 c hc
      rw [List.length_map, blocks_length (fun p => (B p).length)]
      have hqp : q < L.procs := by
        rcases List.mem_cons.1 hq with rfl | hq
        · exact hp
        · exact (hnb.ranks p hp q hq).1
      exact block_lt (fun p => (B p).length) (b := 0) hb hqp

/-- C148, part: the lists of neighbours of the parallel helper (C85) are complete if of every two processes with a common entity each has a DOF owned by the
other one. Missing: processes that share entities, but own no DOF of each other. -/
theorem C148_neighbours_partial (hv : Valid L ents ndof ib) {rmsgs : List Msg} (hr : Interface L ib rmsgs)
    (hown : ∀ p q, p < L.procs → q < L.procs → p ≠ q → Share L p q → ∃ c ∈ L.copies p, c.dofs ≠ [] ∧ Lowest L c.ent q) :
    Neighbours L fun p => neighborRanks p (rankPartition L rmsgs p) where
  nodup p hp := (C85_owners_partial hv hr hp).1.imp fun h => Nat.ne_of_lt h
  ranks p hp q hq := by
    obtain ⟨h1, c, _, _, h2⟩ := ((C85_owners_partial hv hr hp).2 q).1 hq
    exact ⟨h2.1, h1⟩
  all p q hp hq hne hsh := ((C85_owners_partial hv hr hp).2 q).2 ⟨hne.symm, hown p q hp hq hne hsh⟩

/-! ### C149 -/

/-- C149. On all processes, the restriction of a consistent vector has as entries the scalar products of the basis vectors, extended by zero, with the global
vector. -/
theorem C149_restrict (hv : Valid L ents ndof ib) (B : Basis K) {d : Vecs K} {D : Nat → Nat → K} (hd : ConsistentOn L all d D) :
    (restrict L B d).length = ∑ q ∈ Finset.range L.procs, (B q).length ∧
    ∀ p, p < L.procs → ∀ (a : Nat) (v : Nat → K), (B p)[a]? = some v →
      (restrict L B d)[number B p a]? = some (sumDofs ents ndof fun e k => extend L p v e k * D e k) := by
  obtain ⟨h1, h2⟩ := restrict_get L B d
  refine ⟨h1, ?_⟩
  intro p hp a v hva
  rw [h2 p hp a v hva]
  congr 1
  exact sum_local hv hp (fun c hc k i hk => hd p hp c hc rfl k i hk) v

/-- The global vector with given coefficients of the basis vectors. -/
def combination (L : Layout) (B : Basis K) (y : List K) (e k : Nat) : K :=
  ∑ p ∈ Finset.range L.procs, ∑ a ∈ Finset.range (B p).length, (y[number B p a]?).getD 0 * extend L p ((B p)[a]?.getD fun _ => 0) e k

private theorem total_prolongate (B : Basis K) (y : List K) (e k : Nat) : total L all (prolongate B y) e k = combination L B y e k := by
  unfold total combination
  refine Finset.sum_congr rfl ?_
  intro p _
  unfold extend
  cases pos L all p e k with
  | none => simp
  | some i =>
    simp only [Option.elim]
    rw [prolongate_eq]
    refine Finset.sum_congr rfl ?_
    intro a _
    rw [mul_comm]
    rfl

/-- C149. For every order of delivery, the preconditioner succeeds; its result is consistent on all copies: the sum of the results of the subdomain solvers plus, if
the coarse space is active, the combination of the basis vectors with the solution of the coarse system for the restricted defect. -/
theorem C149_apply (hv : Valid L ents ndof ib) (hfull : Full L ndof) {msgs : List Message} (hm : Exchange L all all msgs) (active : Bool) (B : Basis K)
    (solve : Nat → (Nat → K) → Nat → K) (coarseSolve : List K → List K) (d : Vecs K) :
    ∃ y, twoLevelApply L active msgs B solve coarseSolve d = some y ∧ ConsistentOn L all y fun e k =>
      (∑ p ∈ Finset.range L.procs, extend L p (solve p (d p)) e k) + if active then combination L B (coarseSolve (restrict L B d)) e k else 0 := by
  unfold twoLevelApply
  cases active with
  | false =>
    obtain ⟨y, h1, h2⟩ := communicate_total hv hm (fits_full hfull hm) (fun p => solve p (d p))
    refine ⟨y, h1, ?_⟩
    intro p hp c hc hf k i hk
    rw [h2 p hp c hc hf k i hk]
    simp only [Bool.false_eq_true, if_false, add_zero]
    rfl
  | true =>
    obtain ⟨y, h1, h2⟩ := communicate_total hv hm (fits_full hfull hm) (fun p i => solve p (d p) i + prolongate B (coarseSolve (restrict L B d)) p i)
    refine ⟨y, h1, ?_⟩
    intro p hp c hc hf k i hk
    rw [h2 p hp c hc hf k i hk, total_add all (fun p i => solve p (d p) i), total_prolongate]
    simp only [if_true]
    rfl

private theorem sumDofs_mul (a : K) (h : Nat → Nat → K) : a * sumDofs ents ndof h = sumDofs ents ndof fun e k => a * h e k := by
  unfold sumDofs
  simp only [Finset.mul_sum]

/-- C149. The restricted product of the global matrix with a combination of basis vectors is the product of the coarse matrix with the coefficients: the exact
solution of the coarse system removes the error in the coarse space. -/
theorem C149_galerkin (hv : Valid L ents ndof ib) (hfull : Full L ndof) {nb : Nat → List Nat} (hnb : Neighbours L nb) {msgs : Nat → List Message}
    (hm : ∀ b, Exchange L all all (msgs b)) (hA : Assembled L cc A allCells cells M) {B : Basis K} (hB : Vanishing L cc B) (y : List K) {d : Vecs K}
    (hd : ConsistentOn L all d (globalMv ents ndof (globalMatrix allCells M) (combination L B y))) :
    ∃ C, coarseSystem L nb msgs A B = some C ∧ ∀ p, p < L.procs → ∀ (a : Nat), a < (B p).length → ∃ row, C[number B p a]? = some row ∧
      (restrict L B d)[number B p a]? = some (∑ q ∈ Finset.range L.procs, ∑ b ∈ Finset.range (B q).length,
        (row (number B q b)).getD 0 * (y[number B q b]?).getD 0) := by
  obtain ⟨C, h1, _, h2⟩ := C148_entries hv hfull hnb hm hA hB
  refine ⟨C, h1, ?_⟩
  intro p hp a ha
  obtain ⟨row, h3, h4, _⟩ := h2 p hp a (B p)[a] (List.getElem?_eq_getElem ha)
  refine ⟨row, h3, ?_⟩
  rw [(C149_restrict hv B hd).2 p hp a (B p)[a] (List.getElem?_eq_getElem ha)]
  congr 1
  unfold globalMv combination
  simp only [Finset.mul_sum]
  simp only [sumDofs_sum, Finset.mul_sum]
  refine Finset.sum_congr rfl ?_
  intro q hq
  rw [Finset.mem_range] at hq
  refine Finset.sum_congr rfl ?_
  intro b hb
  rw [Finset.mem_range] at hb
  rw [h4 q hq b (B q)[b] (List.getElem?_eq_getElem hb), mul_comm]
  unfold energy globalMv
  rw [sumDofs_mul]
  refine sumDofs_congr ?_
  intro e _ k _
  rw [sumDofs_mul, sumDofs_mul, sumDofs_mul]
  refine sumDofs_congr ?_
  intro e' _ k' _
  rw [List.getElem?_eq_getElem hb]
  simp only [Option.getD_some]
  ring

private theorem sum_blocks (B : Basis K) (f : Nat → K) : ∀ n, ∑ p ∈ Finset.range n, ∑ a ∈ Finset.range (B p).length, f (number B p a) =
    ∑ m ∈ Finset.range (∑ p ∈ Finset.range n, (B p).length), f m := by
  intro n
  induction n with
  | zero => rfl
  | succ n ih =>
    rw [Finset.sum_range_succ, ih, Finset.sum_range_succ (fun p => (B p).length), Finset.sum_range_add]
    rfl

/-- The bilinear form of the two-level preconditioner. -/
private theorem twoLevel_form (hv : Valid L ents ndof ib) (hfull : Full L ndof) {msgs : List Message} (hm : Exchange L all all msgs) (B : Basis K)
    (S : Nat → Nat → Nat → K) (G : Nat → Nat → K) {N : Nat} (hN : N = ∑ p ∈ Finset.range L.procs, (B p).length) {d d' : Vecs K} {D D' : Nat → Nat → K}
    (hd' : ConsistentOn L all d' D') :
    ∃ y Y, twoLevelApply L true msgs B (fun p b => mv (L.size p) (S p) b)
        (fun c => (List.range N).map fun n => ∑ m ∈ Finset.range N, G n m * (c[m]?).getD 0) d = some y ∧ ConsistentOn L all y Y ∧
      sumDofs ents ndof (fun e k => Y e k * D' e k) =
        (∑ p ∈ Finset.range L.procs, ∑ i ∈ Finset.range (L.size p), ∑ j ∈ Finset.range (L.size p), d' p i * S p i j * d p j) +
        ∑ n ∈ Finset.range N, ∑ m ∈ Finset.range N, ((restrict L B d')[n]?).getD 0 * G n m * ((restrict L B d)[m]?).getD 0 := by
  obtain ⟨y, h1, h2⟩ := C149_apply hv hfull hm true B (fun p b => mv (L.size p) (S p) b)
    (fun c => (List.range N).map fun n => ∑ m ∈ Finset.range N, G n m * (c[m]?).getD 0) d
  refine ⟨y, _, h1, h2, ?_⟩
  simp only [if_true]
  have hsplit : ∀ (U V W : Nat → Nat → K), sumDofs ents ndof (fun e k => (U e k + V e k) * W e k) =
      sumDofs ents ndof (fun e k => U e k * W e k) + sumDofs ents ndof (fun e k => V e k * W e k) := by
    intro U V W
    unfold sumDofs
    simp only [add_mul, Finset.sum_add_distrib]
  rw [hsplit (fun e k => ∑ p ∈ Finset.range L.procs, extend L p (mv (L.size p) (S p) (d p)) e k)]
  congr 1
  · have := pairing hv (fun p => mv (L.size p) (S p) (d p)) hd'
    unfold total at this
    unfold extend
    rw [this]
    refine Finset.sum_congr rfl fun p _ => Finset.sum_congr rfl fun i _ => ?_
    unfold mv
    rw [Finset.sum_mul]
    refine Finset.sum_congr rfl fun j _ => ?_
    ring
  · unfold combination
    simp only [Finset.sum_mul, sumDofs_sum]
    have hkey : ∀ p ∈ Finset.range L.procs, ∀ a ∈ Finset.range (B p).length,
        sumDofs ents ndof (fun e k => ((((List.range N).map fun n => ∑ m ∈ Finset.range N, G n m * ((restrict L B d)[m]?).getD 0)[number B p a]?).getD 0 *
          extend L p ((B p)[a]?.getD fun _ => 0) e k) * D' e k) =
        (fun n => (((List.range N).map fun n => ∑ m ∈ Finset.range N, G n m * ((restrict L B d)[m]?).getD 0)[n]?).getD 0 *
          ((restrict L B d')[n]?).getD 0) (number B p a) := by
      intro p hp a ha
      rw [Finset.mem_range] at hp ha
      beta_reduce
      rw [(C149_restrict hv B hd').2 p hp a (B p)[a] (List.getElem?_eq_getElem ha), Option.getD_some, sumDofs_mul, List.getElem?_eq_getElem ha]
      simp only [Option.getD_some, mul_assoc]
    have hsum := sum_blocks B (fun n => (((List.range N).map fun n => ∑ m ∈ Finset.range N, G n m * ((restrict L B d)[m]?).getD 0)[n]?).getD 0 *
      ((restrict L B d')[n]?).getD 0) L.procs
    rw [← hN] at hsum
    refine (Finset.sum_congr rfl fun p hp => Finset.sum_congr rfl (hkey p hp)).trans (hsum.trans ?_)
    refine Finset.sum_congr rfl fun n hn => ?_
    rw [Finset.mem_range] at hn
    simp only [List.getElem?_map, List.getElem?_range hn, Option.map_some, Option.getD_some, Finset.sum_mul]
    refine Finset.sum_congr rfl fun m _ => ?_
    ring

/-- C149. If the subdomain solvers and the coarse solver are given by symmetric matrices, the preconditioner is symmetric with respect to the global scalar
product. -/
theorem C149_symmetric (hv : Valid L ents ndof ib) (hfull : Full L ndof) {msgs : List Message} (hm : Exchange L all all msgs) (B : Basis K)
    (S : Nat → Nat → Nat → K) (hS : ∀ p, p < L.procs → ∀ i j, S p i j = S p j i) (G : Nat → Nat → K) (hG : ∀ n m, G n m = G m n) {N : Nat}
    (hN : N = ∑ p ∈ Finset.range L.procs, (B p).length) {d d' : Vecs K} {D D' : Nat → Nat → K} (hd : ConsistentOn L all d D) (hd' : ConsistentOn L all d' D') :
    let apply := twoLevelApply L true msgs B (fun p b => mv (L.size p) (S p) b) (fun c => (List.range N).map fun n => ∑ m ∈ Finset.range N, G n m * (c[m]?).getD 0)
    ∃ y Y y' Y', apply d = some y ∧ ConsistentOn L all y Y ∧ apply d' = some y' ∧ ConsistentOn L all y' Y' ∧
      sumDofs ents ndof (fun e k => Y e k * D' e k) = sumDofs ents ndof (fun e k => D e k * Y' e k) := by
  intro apply
  obtain ⟨y, Y, h1, h2, h3⟩ := twoLevel_form hv hfull hm B S G hN (d := d) (D := D) hd'
  obtain ⟨y', Y', h1', h2', h3'⟩ := twoLevel_form hv hfull hm B S G hN (d := d') (D := D') hd
  refine ⟨y, Y, y', Y', h1, h2, h1', h2', ?_⟩
  have hcomm : sumDofs ents ndof (fun e k => D e k * Y' e k) = sumDofs ents ndof (fun e k => Y' e k * D e k) :=
    sumDofs_congr fun e _ k _ => mul_comm _ _
  rw [hcomm, h3, h3']
  congr 1
  · refine Finset.sum_congr rfl ?_
    intro p hp
    rw [Finset.mem_range] at hp
    rw [Finset.sum_comm]
    refine Finset.sum_congr rfl fun j _ => Finset.sum_congr rfl fun i _ => ?_
    rw [hS p hp i j]
    ring
  · rw [Finset.sum_comm]
    refine Finset.sum_congr rfl fun j _ => Finset.sum_congr rfl fun i _ => ?_
    rw [hG i j]
    ring

/-- C149. If the matrices are positive semidefinite, so is the preconditioner. -/
theorem C149_positive {K : Type} [CommRing K] [LinearOrder K] [IsStrictOrderedRing K] (hv : Valid L ents ndof ib) (hfull : Full L ndof) {msgs : List Message}
    (hm : Exchange L all all msgs) (B : Basis K) (S : Nat → Nat → Nat → K) (G : Nat → Nat → K) {N : Nat} (hN : N = ∑ p ∈ Finset.range L.procs, (B p).length)
    (hS : ∀ p, p < L.procs → ∀ u : Nat → K, 0 ≤ ∑ i ∈ Finset.range (L.size p), ∑ j ∈ Finset.range (L.size p), u i * S p i j * u j)
    (hG : ∀ u : Nat → K, 0 ≤ ∑ n ∈ Finset.range N, ∑ m ∈ Finset.range N, u n * G n m * u m) {d : Vecs K} {D : Nat → Nat → K} (hd : ConsistentOn L all d D) :
    ∃ y Y, twoLevelApply L true msgs B (fun p b => mv (L.size p) (S p) b)
        (fun c => (List.range N).map fun n => ∑ m ∈ Finset.range N, G n m * (c[m]?).getD 0) d = some y ∧ ConsistentOn L all y Y ∧
      0 ≤ sumDofs ents ndof (fun e k => Y e k * D e k) := by
  obtain ⟨y, Y, h1, h2, h3⟩ := twoLevel_form hv hfull hm B S G hN (d := d) (D := D) hd
  refine ⟨y, Y, h1, h2, ?_⟩
  rw [h3]
  refine add_nonneg ?_ (hG fun n => ((restrict L B d)[n]?).getD 0)
  exact Finset.sum_nonneg fun p hp => hS p (Finset.mem_range.1 hp) (d p)
end

/-! ### C150 -/

section
variable {K : Type} [Field K] [LinearOrder K]

/-- C150. With a threshold, the number of chosen eigenvectors is the index of the first of the first `nev` eigenvalues above it; if there is none, the
constructor throws. -/
theorem C150_count (threshold : K) (ht : 0 ≤ threshold) (nev : Nat) (eigenvalues : List K) (hlen : nev ≤ eigenvalues.length) :
    (∀ cnt, chooseCount threshold nev eigenvalues = some cnt ↔
      cnt < nev ∧ (∀ x ∈ eigenvalues.take cnt, x ≤ threshold) ∧ ∃ x, eigenvalues[cnt]? = some x ∧ threshold < x) ∧
    (chooseCount threshold nev eigenvalues = none ↔ ∀ x ∈ eigenvalues.take nev, x ≤ threshold) := by
  have hget : ∀ i, i < nev → ∃ x, eigenvalues[i]? = some x ∧ (eigenvalues[i]?).getD 0 = x := by
    intro i hi
    refine ⟨_, List.getElem?_eq_getElem (by omega), ?_⟩
    rw [List.getElem?_eq_getElem (by omega)]
    rfl
  have htake : ∀ cnt, cnt ≤ nev → ((∀ x ∈ eigenvalues.take cnt, x ≤ threshold) ↔ ∀ j, j < cnt → (eigenvalues[j]?).getD 0 ≤ threshold) := by
    intro cnt hc
    constructor
    · intro h j hj
      obtain ⟨x, hx, hx'⟩ := hget j (by omega)
      rw [hx']
      exact h x (List.mem_iff_getElem?.2 ⟨j, by rw [List.getElem?_take, if_pos hj, hx]⟩)
    · intro h x hx
      obtain ⟨j, hj⟩ := List.mem_iff_getElem?.1 hx
      rw [List.getElem?_take] at hj
      split at hj
      · next hlt =>
        have := h j hlt
        rw [hj] at this
        exact this
      · cases hj
  unfold chooseCount countBelow
  rw [if_pos ht]
  constructor
  · intro cnt
    rw [List.find?_range_eq_some]
    simp only [List.mem_range, decide_eq_true_eq, gt_iff_lt, Bool.not_eq_true', decide_eq_false_iff_not, not_lt]
    constructor
    · rintro ⟨h1, h2, h3⟩
      obtain ⟨x, hx, hx'⟩ := hget cnt h2
      exact ⟨h2, (htake cnt (by omega)).2 h3, x, hx, by rw [← hx']; exact h1⟩
    · rintro ⟨h1, h2, x, h3, h4⟩
      exact ⟨by rw [h3]; exact h4, h1, (htake cnt (by omega)).1 h2⟩
  · rw [List.find?_eq_none, htake nev (Nat.le_refl _)]
    simp only [List.mem_range, decide_eq_true_eq, gt_iff_lt, not_lt]

/-- C150. Without threshold, the given number of eigenvectors is chosen. -/
theorem C150_fixed (threshold : K) (ht : threshold < 0) (nev : Nat) (eigenvalues : List K) : chooseCount threshold nev eigenvalues = some nev := by
  unfold chooseCount
  rw [if_neg (not_le.2 ht)]

/-- C150. The constructor throws exactly if fewer eigenpairs are computed than asked for, or no eigenvalue exceeds the threshold. -/
theorem C150_throws (n : Nat) (tiny threshold : K) (unity : Nat → K) (nev : Nat) (nevArpack : Option Nat) (eigen : Nat → List K × List (Nat → K))
    (addUnity : Bool) : eigenBasis n tiny threshold unity nev nevArpack eigen addUnity = none ↔
      nevArpack.getD (max nev 2) < nev ∨ chooseCount threshold nev (eigen (nevArpack.getD (max nev 2))).1 = none := by
  unfold eigenBasis
  simp only
  by_cases h : nevArpack.getD (max nev 2) < nev
  · simp [h]
  · rw [if_neg h, Option.map_eq_none_iff]
    simp [h]

/-- C150. Without adding the partition of unity, or if the first eigenvalue is near zero, the basis has the products of the partition of unity with the chosen
eigenvectors, each divided by the square of its norm. -/
theorem C150_basis (n : Nat) (tiny threshold : K) (unity : Nat → K) (nev : Nat) (nevArpack : Option Nat) (eigen : Nat → List K × List (Nat → K))
    (addUnity : Bool) {m : Nat} (hm : m = nevArpack.getD (max nev 2)) (hnev : nev ≤ m) {cnt : Nat} (hcnt : chooseCount threshold nev (eigen m).1 = some cnt)
    (hvec : cnt ≤ (eigen m).2.length) (hadd : addUnity = false ∨ ∃ x, (eigen m).1[0]? = some x ∧ x ≤ tiny) :
    ∃ l, eigenBasis n tiny threshold unity nev nevArpack eigen addUnity = some l ∧ l.length = cnt ∧
      ∀ b, b < cnt → ∃ x, (eigen m).2[b]? = some x ∧ l[b]? = some fun i => unity i * x i / ∑ j ∈ Finset.range n, (unity j * x j) ^ 2 := by
  unfold eigenBasis
  simp only
  rw [← hm, if_neg (by omega), hcnt, Option.map_some, if_neg (by
    rintro ⟨h1, h2⟩
    rcases hadd with h | ⟨x, h, h'⟩
    · rw [h] at h1; cases h1
    · rw [h] at h2; exact absurd h2 (not_lt.2 h'))]
  refine ⟨_, rfl, by simp, ?_⟩
  intro b hb
  refine ⟨_, List.getElem?_eq_getElem (by omega), ?_⟩
  rw [List.getElem?_map, List.getElem?_map, List.getElem?_range hb, Option.map_some, Option.map_some]
  rw [basisVector_eq (List.getElem?_eq_getElem (by omega))]
  congr 1
  funext i
  unfold scaleBasis dotp
  rw [mul_one_div]
  congr 1
  refine Finset.sum_congr rfl fun j _ => ?_
  rw [pow_two]

/-- C150. All basis vectors vanish where the partition of unity does, in all cases. -/
theorem C150_vanishing (n : Nat) (tiny threshold : K) (unity : Nat → K) (nev : Nat) (nevArpack : Option Nat) (eigen : Nat → List K × List (Nat → K))
    (addUnity : Bool) {l : List (Nat → K)} (hl : eigenBasis n tiny threshold unity nev nevArpack eigen addUnity = some l) :
    ∀ v ∈ l, ∀ i, unity i = 0 → v i = 0 := by
  unfold eigenBasis at hl
  simp only at hl
  split at hl
  · cases hl
  · obtain ⟨cnt, _, hl⟩ := Option.map_eq_some_iff.1 hl
    have hmem : ∀ v ∈ ((List.range cnt).map fun b i => unity i * basisVector (eigen (nevArpack.getD (max nev 2))).2 b i).map (scaleBasis n),
        ∀ i, unity i = 0 → v i = 0 := by
      intro v hv i hi
      obtain ⟨u, hu, rfl⟩ := List.mem_map.1 hv
      obtain ⟨b, _, rfl⟩ := List.mem_map.1 hu
      unfold scaleBasis
      beta_reduce
      rw [hi, zero_mul, zero_mul]
    intro v hv i hi
    split at hl
    · rw [← hl] at hv
      rcases List.mem_cons.1 (List.mem_of_mem_dropLast hv) with rfl | hv
      · exact hi
      · exact hmem v hv i hi
    · rw [← hl] at hv
      exact hmem v hv i hi

/-- C150, part: if the partition of unity is to be added, the first eigenvalue is not near zero, and at least one eigenvector is chosen, the basis starts with the partition
of unity. It replaces the last chosen eigenvector. Missing: no eigenvector is chosen. -/
theorem C150_unity_partial (n : Nat) (tiny threshold : K) (unity : Nat → K) (nev : Nat) (nevArpack : Option Nat) (eigen : Nat → List K × List (Nat → K))
    {m : Nat} (hm : m = nevArpack.getD (max nev 2)) (hnev : nev ≤ m) {cnt : Nat} (hcnt : chooseCount threshold nev (eigen m).1 = some cnt) (hpos : 0 < cnt)
    (hvec : cnt ≤ (eigen m).2.length) {x : K} (hx : (eigen m).1[0]? = some x) (htiny : tiny < x) :
    ∃ l, eigenBasis n tiny threshold unity nev nevArpack eigen true = some l ∧ l.length = cnt ∧ l[0]? = some unity ∧
      ∀ b, b + 1 < cnt → ∃ x, (eigen m).2[b]? = some x ∧ l[b + 1]? = some fun i => unity i * x i / ∑ j ∈ Finset.range n, (unity j * x j) ^ 2 := by
  obtain ⟨l, h1, h2, h3⟩ := C150_basis n tiny threshold unity nev nevArpack eigen false hm hnev hcnt hvec (Or.inl rfl)
  have hl : eigenBasis n tiny threshold unity nev nevArpack eigen true = some (unity :: l).dropLast := by
    unfold eigenBasis at h1 ⊢
    simp only at h1 ⊢
    rw [← hm] at h1 ⊢
    rw [if_neg (by omega), hcnt, Option.map_some, if_neg (by simp)] at h1
    rw [if_neg (by omega), hcnt, Option.map_some, if_pos ⟨trivial, by rw [hx]; exact htiny⟩]
    rw [Option.some.inj h1]
  refine ⟨_, hl, by simp [h2], ?_, ?_⟩
  · rw [List.getElem?_dropLast, if_pos (by simp [h2]; omega)]
    rfl
  · intro b hb
    obtain ⟨x, h4, h5⟩ := h3 b (by omega)
    refine ⟨x, h4, ?_⟩
    rw [List.getElem?_dropLast, if_pos (by simp [h2]; omega), List.getElem?_cons_succ, h5]

/-- If the partition of unity is to be added, but no eigenvalue is below the threshold, the basis is empty. -/
theorem C150_unity_lost (n : Nat) (tiny threshold : K) (unity : Nat → K) (nev : Nat) (nevArpack : Option Nat) (eigen : Nat → List K × List (Nat → K))
    {m : Nat} (hm : m = nevArpack.getD (max nev 2)) (hnev : nev ≤ m) (hcnt : chooseCount threshold nev (eigen m).1 = some 0) {x : K}
    (hx : (eigen m).1[0]? = some x) (htiny : tiny < x) : eigenBasis n tiny threshold unity nev nevArpack eigen true = some [] := by
  unfold eigenBasis
  simp only
  rw [← hm, if_neg (by omega), hcnt, Option.map_some, if_pos ⟨trivial, by rw [hx]; exact htiny⟩]
  rfl

/-- The norm of a basis vector is the reciprocal of the norm before scaling: the basis vectors are not normalised. -/
theorem C150_norm (n : Nat) (v : Nat → K) (hv : dotp n v v ≠ 0) : dotp n (scaleBasis n v) (scaleBasis n v) = 1 / dotp n v v := by
  have h : dotp n (scaleBasis n v) (scaleBasis n v) = dotp n v v * (1 / dotp n v v * (1 / dotp n v v)) := by
    conv_lhs => unfold dotp
    rw [show dotp n v v * (1 / dotp n v v * (1 / dotp n v v)) = (∑ i ∈ Finset.range n, v i * v i) * (1 / dotp n v v * (1 / dotp n v v)) from rfl, Finset.sum_mul]
    refine Finset.sum_congr rfl fun i _ => ?_
    unfold scaleBasis
    ring
  rw [h]
  field_simp

/-- C150. The eigenvalue problem of the GenEO basis is that for products with the partition of unity: for all vectors, the bilinear form of the scaled matrix is
that of the given one for the products. -/
theorem C150_form (n : Nat) (unity : Nat → K) (A : Nat → Nat → K) (x y : Nat → K) :
    dotp n x (mv n (scaleMatrix unity A) y) = dotp n (fun i => unity i * x i) (mv n A fun j => unity j * y j) := by
  unfold dotp mv scaleMatrix
  refine Finset.sum_congr rfl fun i _ => ?_
  rw [Finset.mul_sum, Finset.mul_sum]
  refine Finset.sum_congr rfl fun j _ => ?_
  ring
end

/-! ### C151 -/

/-- The number of processes with the DOF `(e,k)`. -/
def processes (L : Layout) (e k : Nat) : Nat := ((List.range L.procs).filter fun p => (pos L all p e k).isSome).length

/-- C151. For every order of delivery, the communication succeeds, and the method of the base operator is called for an element exactly if all its DOFs are on at
least two processes; else nothing is added. An element is given by the entity and number of each of its DOFs. -/
theorem C151_evaluated (hv : Valid L ents ndof ib) (hfull : Full L ndof) {msgs : List Message} (hm : Exchange L all all msgs) :
    ∃ s, subdomainSum msgs = some s ∧ ∀ p, p < L.procs → ∀ (dofs : List (Nat × Nat)) (pos_ : List Nat),
      dofs.map (fun q => pos L all p q.1 q.2) = pos_.map some → ∀ {R : Type} (f : R → R) (r : R),
        ((∀ q ∈ dofs, 2 ≤ processes L q.1 q.2) → ovlpMethod (s p) pos_ f r = f r) ∧
        ((¬ ∀ q ∈ dofs, 2 ≤ processes L q.1 q.2) → ovlpMethod (s p) pos_ f r = r) := by
  obtain ⟨s, h1, h2⟩ := communicate_total (V := Nat) hv hm (fits_full hfull hm) (fun _ _ => 1)
  have hcount : ∀ e k, total L all (fun _ _ => 1) e k = processes L e k := by
    intro e k
    unfold total processes
    generalize L.procs = n
    induction n with
    | zero => rfl
    | succ n ih =>
      rw [Finset.sum_range_succ, ih, List.range_succ, List.filter_append, List.length_append]
      congr 1
      cases h : pos L all n e k <;> simp [h]
  refine ⟨s, h1, ?_⟩
  intro p hp dofs pos_ hpos R f r
  have hval : ∀ (j : Nat) (q : Nat × Nat), dofs[j]? = some q → ∃ i, pos_[j]? = some i ∧ s p i = processes L q.1 q.2 := by
    intro j q hj
    have h3 := congrArg (fun l => l[j]?) hpos
    simp only [List.getElem?_map, hj, Option.map_some] at h3
    cases hi : pos_[j]? with
    | none => rw [hi] at h3; cases h3
    | some i =>
      rw [hi, Option.map_some] at h3
      refine ⟨i, rfl, ?_⟩
      obtain ⟨c, hc, _, he, hk⟩ := of_pos (Option.some.inj h3)
      rw [h2 p hp c hc rfl q.2 i hk, hcount, he]
  have hint : entityIsInterior (s p) pos_ = true ↔ ¬ ∀ q ∈ dofs, 2 ≤ processes L q.1 q.2 := by
    unfold entityIsInterior
    rw [List.any_eq_true]
    constructor
    · rintro ⟨i, hi, hlt⟩ hall
      obtain ⟨j, hj⟩ := List.mem_iff_getElem?.1 hi
      have hlen : dofs.length = pos_.length := by simpa using congrArg List.length hpos
      have hjd : j < dofs.length := by rw [hlen]; exact (List.getElem?_eq_some_iff.1 hj).1
      obtain ⟨i', hi', hs⟩ := hval j dofs[j] (List.getElem?_eq_getElem hjd)
      rw [hj] at hi'
      cases hi'
      have := hall dofs[j] (List.getElem_mem hjd)
      rw [decide_eq_true_eq] at hlt
      omega
    · intro h
      rw [not_forall] at h
      obtain ⟨q, hq⟩ := h
      rw [Classical.not_imp] at hq
      obtain ⟨j, hj⟩ := List.mem_iff_getElem?.1 hq.1
      obtain ⟨i, hi, hs⟩ := hval j q hj
      exact ⟨i, List.mem_of_getElem? hi, by rw [decide_eq_true_eq]; omega⟩
  unfold ovlpMethod
  constructor
  · intro h
    rw [if_neg fun h' => hint.1 h' h]
  · intro h
    rw [if_pos (hint.2 h)]

/-- C151, part: an element is evaluated if another process has all its DOFs. Missing: elements that are not on another process are left out. -/
theorem C151_covered_partial (hv : Valid L ents ndof ib) (hfull : Full L ndof) {msgs : List Message} (hm : Exchange L all all msgs) :
    ∃ s, subdomainSum msgs = some s ∧ ∀ p, p < L.procs → ∀ q, q < L.procs → p ≠ q → ∀ (dofs : List (Nat × Nat)) (pos_ : List Nat),
      dofs.map (fun d => pos L all p d.1 d.2) = pos_.map some → (∀ d ∈ dofs, OnProcess L q d.1 d.2) → ∀ {R : Type} (f : R → R) (r : R),
        ovlpMethod (s p) pos_ f r = f r := by
  obtain ⟨s, h1, h2⟩ := C151_evaluated hv hfull hm
  refine ⟨s, h1, ?_⟩
  intro p hp q hq hne dofs pos_ hpos hon R f r
  refine (h2 p hp dofs pos_ hpos f r).1 ?_
  intro d hd
  have hpd : (pos L all p d.1 d.2).isSome := by
    have : pos L all p d.1 d.2 ∈ pos_.map some := hpos ▸ List.mem_map.2 ⟨d, hd, rfl⟩
    obtain ⟨i, _, hi⟩ := List.mem_map.1 this
    rw [← hi]; rfl
  have hqd : (pos L all q d.1 d.2).isSome := by
    obtain ⟨c, hc, he, hk⟩ := hon d hd
    rw [← he, pos_eq hv hq hc rfl, List.getElem?_eq_getElem hk]; rfl
  have hsub : [p, q].Subperm ((List.range L.procs).filter fun p => (pos L all p d.1 d.2).isSome) := by
    refine List.subperm_of_subset (by simp [hne]) ?_
    intro x hx
    rw [List.mem_filter, List.mem_range]
    rcases List.mem_cons.1 hx with rfl | hx
    · exact ⟨hp, hpd⟩
    · rw [List.mem_singleton] at hx
      subst hx
      exact ⟨hq, hqd⟩
  exact hsub.length_le

end

/-! ### Examples -/

/-- Two coarse basis vectors on process 0 and one on process 1 of the example with four cells in a row. -/
def rowBasis : Basis ℤ := fun p => match p with
  | 0 => [fun i => [0, 1, 1, 0].getD i 0, fun i => [0, 2, 0, 0].getD i 0]
  | 1 => [fun i => [0, 1, 3, 0].getD i 0]
  | _ => []

theorem rowVanishing : Vanishing overlapLayout overlapCC rowBasis := by
  unfold Vanishing
  intro p hp v hv i hi
  have hp : p = 0 ∨ p = 1 := by have : p < 2 := hp; omega
  have hi3 : i = 0 ∨ i = 3 := by simpa [overlapCC] using hi
  clear hi
  rcases hp with rfl | rfl
  · have hv : v = (fun i => [0, 1, 1, 0].getD i 0) ∨ v = fun i => [0, 2, 0, 0].getD i 0 := by simpa [rowBasis] using hv
    rcases hv with rfl | rfl <;> rcases hi3 with rfl | rfl <;> rfl
  · have hv : v = (fun i => [0, 1, 3, 0].getD i 0) := by simpa [rowBasis] using hv
    subst hv
    rcases hi3 with rfl | rfl <;> rfl

theorem rowNeighbours : Neighbours overlapLayout fun p => if p = 0 then [1] else [0] where
  nodup := by decide
  ranks := by decide
  all := by
    intro p q hp hq hne _
    have hp : p < 2 := hp
    have hq : q < 2 := hq
    by_cases h : p = 0
    · simp [h]; omega
    · simp [h]; omega

/- The coarse matrix of the example. -/
example : (coarseSystem overlapLayout (fun p => if p = 0 then [1] else [0]) (fun _ => allMessages overlapLayout all all) laplaceLocal rowBasis).map
    (fun C => C.map fun row => (List.range 4).map row) =
    some [[some 2, some 2, some 2, none], [some 2, some 8, some (-6), none], [some 2, some (-6), some 14, none]] := by decide +kernel

/- In this example the lists of the parallel helper are the complete ones. -/
example : (List.range 2).map (fun p => neighborRanks p (rankPartition overlapLayout
    [⟨0, 1, ⟨1, false, [3]⟩⟩, ⟨0, 1, ⟨2, true, [2]⟩⟩, ⟨1, 0, ⟨2, true, [2]⟩⟩, ⟨1, 0, ⟨3, false, [3]⟩⟩] p)) = [[1], [0]] := by decide

example : ∃ C, coarseSystem overlapLayout (fun p => if p = 0 then [1] else [0]) (fun _ => allMessages overlapLayout all all) laplaceLocal rowBasis = some C ∧
    ∃ row, C[1]? = some row ∧ (row 2).getD 0 = energy [0, 1, 2, 3, 4] (fun _ => 1) (globalMatrix {0, 1, 2, 3} laplace)
      (extend overlapLayout 0 fun i => [0, 2, 0, 0].getD i 0) (extend overlapLayout 1 fun i => [0, 1, 3, 0].getD i 0) := by
  obtain ⟨C, h1, _, h2⟩ := C148_entries overlapValid overlapFull rowNeighbours (fun _ => overlapAll) overlapAssembled rowVanishing
  obtain ⟨row, h3, h4, _⟩ := h2 0 (by decide) 1 _ rfl
  exact ⟨C, h1, row, h3, h4 1 (by decide) 0 _ rfl⟩

/-- Three cells in a row, one for each of three processes, with one cell of overlap: vertices 0, …, 3. -/
def thinLayout : Layout where
  procs := 3
  copies := fun p => match p with
    | 0 => [⟨0, true, [0]⟩, ⟨1, true, [1]⟩, ⟨2, false, [2]⟩]
    | 1 => [⟨0, false, [0]⟩, ⟨1, true, [1]⟩, ⟨2, true, [2]⟩, ⟨3, false, [3]⟩]
    | 2 => [⟨1, false, [0]⟩, ⟨2, true, [1]⟩, ⟨3, true, [2]⟩]
    | _ => []
  size := fun p => if p = 1 then 4 else 3

theorem thinValid : Valid thinLayout [0, 1, 2, 3] (fun _ => 1) false where
  ranks := by decide
  positions := by decide
  once := by decide
  distinct := by decide
  known := by decide
  somewhere := by
    intro e he
    simp only [List.mem_cons, List.not_mem_nil, or_false] at he
    rcases he with rfl | rfl | rfl | rfl
    · exact ⟨0, by decide, ⟨0, true, [0]⟩, by decide, rfl, rfl⟩
    · exact ⟨0, by decide, ⟨1, true, [1]⟩, by decide, rfl, rfl⟩
    · exact ⟨1, by decide, ⟨2, true, [2]⟩, by decide, rfl, rfl⟩
    · exact ⟨2, by decide, ⟨3, true, [2]⟩, by decide, rfl, rfl⟩
  dofs := by decide
  restricted := by intro h; cases h

/-- The messages for the partition of the DOFs to the processes. -/
def thinMessages : List Msg :=
  (List.range 3).flatMap fun p => (List.range 3).flatMap fun q => (thinLayout.copies p).flatMap fun c => (thinLayout.copies q).flatMap fun c' =>
    if p ≠ q ∧ c.ent = c'.ent ∧ c.ib = true then [⟨p, q, c'⟩] else []

theorem thinInterface : Interface thinLayout false thinMessages := by
  intro m
  unfold thinMessages HasIB
  simp only [List.mem_flatMap, List.mem_range]
  constructor
  · rintro ⟨p, hp, q, hq, c, hc, c', hc', hmem⟩
    split at hmem
    · next h =>
      rw [List.mem_singleton] at hmem
      subst hmem
      exact ⟨hp, hq, h.1, hc', ⟨c, hc, h.2.1, h.2.2⟩, fun h => by cases h⟩
    · simp at hmem
  · rintro ⟨h1, h2, h3, h4, ⟨c, hc, h5, h6⟩, _⟩
    refine ⟨m.src, h1, m.dst, h2, c, hc, m.copy, h4, ?_⟩
    rw [if_pos ⟨h3, h5, h6⟩]
    simp

/-- C148 fails: three cells in a row, one for each of three processes, with one cell of overlap. Processes 0 and 2 have a common cell, but process 2 owns no DOF of
process 0; with the lists of neighbours of the parallel helper the set-up of the coarse system throws for every basis with a vector, in every order of delivery. -/
theorem C148_setup_false {K : Type} [CommRing K] (A : Nat → Nat → Nat → K) (B : Basis K) (hB : 0 < (B 0).length) {msgs : Nat → List Message}
    (hm : Exchange thinLayout all all (msgs 0)) :
    neighborRanks 0 (rankPartition thinLayout thinMessages 0) = [1] ∧ Share thinLayout 0 2 ∧
    coarseSystem thinLayout (fun p => neighborRanks p (rankPartition thinLayout thinMessages p)) msgs A B = none := by
  have hnb : neighborRanks 0 (rankPartition thinLayout thinMessages 0) = [1] := by decide +kernel
  refine ⟨hnb, ⟨⟨1, true, [1]⟩, by decide, ⟨1, false, [0]⟩, by decide, rfl⟩, ?_⟩
  have hfail : ∀ (ms : List Message) (x : Vecs K), (⟨2, 0, ⟨1, false, [0]⟩, ⟨1, true, [1]⟩⟩ : Message) ∈ ms → ∀ s,
      ms.foldlM (deliverMulti (fun p => neighborRanks p (rankPartition thinLayout thinMessages p)) x) s = none := by
    intro ms x
    induction ms with
    | nil => intro h; cases h
    | cons m ms ih =>
      intro h s
      rw [List.foldlM_cons]
      rcases List.mem_cons.1 h with h | h
      · subst h
        unfold deliverMulti
        dsimp only
        rw [hnb]
        rfl
      · cases deliverMulti (fun p => neighborRanks p (rankPartition thinLayout thinMessages p)) x s m with
        | none => rfl
        | some s' => exact ih h s'
  have hmax : 0 < maxSize (fun p => (B p).length) thinLayout.procs :=
    Nat.lt_of_lt_of_le hB (le_maxSize (fun p => (B p).length) (show 0 < thinLayout.procs by decide))
  obtain ⟨n, hn⟩ : ∃ n, maxSize (fun p => (B p).length) thinLayout.procs = n + 1 := ⟨_, (Nat.succ_pred_eq_of_pos hmax).symm⟩
  unfold coarseSystem
  rw [hn, List.range_succ_eq_map, List.foldlM_cons]
  unfold round
  rw [hfail (msgs 0) _ ((hm.2 _).2 ⟨by decide, by decide, by decide, by decide, by decide, rfl, rfl, rfl⟩)]
  rfl

example : Exchange thinLayout all all (allMessages thinLayout all all) := exchange_all _ _ _ (by decide +kernel)

/- Restriction and prolongation in the example. -/
example : restrict overlapLayout rowBasis (fun p i => ((vertex p i) ^ 2 : ℤ)) = [5, 2, 21] := by decide +kernel

example : (restrict overlapLayout rowBasis (fun p i => ((vertex p i) ^ 2 : ℤ)))[2]? =
    some (sumDofs [0, 1, 2, 3, 4] (fun _ => 1) fun e k => extend overlapLayout 1 (fun i => [0, 1, 3, 0].getD i 0) e k * (e : ℤ) ^ 2) :=
  (C149_restrict overlapValid rowBasis overlapConsistent).2 1 (by decide) 0 _ rfl

example : (twoLevelApply overlapLayout true (allMessages overlapLayout all all) rowBasis (fun _ b i => 2 * b i) (fun c => c.map (· * 10))
    (fun p i => ((vertex p i) ^ 2 : ℤ))).map (fun y => (List.range 2).map fun p => (List.range 4).map (y p)) =
    some [[0, 94, 696, 246], [32, 246, 696, 94]] := by decide +kernel

example : ∃ y, twoLevelApply overlapLayout true (allMessages overlapLayout all all) rowBasis (fun _ b i => 2 * b i) (fun c => c.map (· * 10))
    (fun p i => ((vertex p i) ^ 2 : ℤ)) = some y ∧ y 0 2 = y 1 2 := by
  obtain ⟨y, h1, h2⟩ := C149_apply overlapValid overlapFull overlapAll true rowBasis (fun _ b i => 2 * b i) (fun c => c.map (· * 10)) (fun p i => ((vertex p i) ^ 2 : ℤ))
  exact ⟨y, h1, (h2 0 (by decide) ⟨2, true, [2]⟩ (by decide) rfl 0 2 rfl).trans (h2 1 (by decide) ⟨2, true, [2]⟩ (by decide) rfl 0 2 rfl).symm⟩

/- Three eigenvalues, threshold 1: two eigenvectors are chosen. -/
example : chooseCount (1 : ℚ) 3 [1/10, 1, 5, 6] = some 2 := by decide +kernel
example : chooseCount (1 : ℚ) 2 [1/10, 1, 5, 6] = none := by decide +kernel

/-- Eigenpairs of the example. -/
def someEigen : Nat → List ℚ × List (Nat → ℚ) := fun m => (([1/10, 1, 5, 6] : List ℚ).take m, ([fun _ => 1, fun i => i, fun i => i * i, fun _ => 0] : List (Nat → ℚ)).take m)

example : (eigenBasis 3 (1/10000000000) (1 : ℚ) (fun i => if i = 0 then 0 else 2) 3 (some 4) someEigen false).map (fun l => l.map fun v => (List.range 3).map v) =
    some [[0, 1/4, 1/4], [0, 1/10, 1/5]] := by decide +kernel

example : (eigenBasis 3 (1/10000000000) (1 : ℚ) (fun i => if i = 0 then 0 else 2) 3 (some 4) someEigen true).map (fun l => l.map fun v => (List.range 3).map v) =
    some [[0, 2, 2], [0, 1/4, 1/4]] := by decide +kernel

/-- C150 fails: if the partition of unity is to be added, but no eigenvalue is below the threshold, the basis is empty. -/
theorem C150_unity_false : (eigenBasis 3 (1/10000000000) (1/100 : ℚ) (fun i => if i = 0 then 0 else 2) 3 (some 4) someEigen true).map List.length = some 0 := by
  decide +kernel

/-- C150 fails: the basis vectors are not normalised. -/
theorem C150_norm_false : ∃ l, eigenBasis 3 (1/10000000000) (1 : ℚ) (fun i => if i = 0 then 0 else 2) 3 (some 4) someEigen false = some l ∧
    ∃ v ∈ l, dotp 3 v v = 1/8 := by
  obtain ⟨l, h1, h2, h3⟩ := C150_basis 3 (1/10000000000) (1 : ℚ) (fun i => if i = 0 then 0 else 2) 3 (some 4) someEigen false (m := 4) rfl (by decide)
    (cnt := 2) (by decide +kernel) (by decide) (Or.inl rfl)
  obtain ⟨x, h4, h5⟩ := h3 0 (by decide)
  refine ⟨l, h1, _, List.mem_of_getElem? h5, ?_⟩
  have hx : x = fun _ => 1 := (Option.some.inj h4).symm
  subst hx
  decide +kernel

/-- Five cells in a row: process 0 has the cells 0 and 1, process 1 all, process 2 the cells 3 and 4 (one cell of overlap). Vertices 0, …, 5. -/
def gapLayout : Layout where
  procs := 3
  copies := fun p => match p with
    | 0 => [⟨0, true, [0]⟩, ⟨1, true, [1]⟩, ⟨2, false, [2]⟩]
    | 1 => [⟨0, false, [0]⟩, ⟨1, true, [1]⟩, ⟨2, true, [2]⟩, ⟨3, true, [3]⟩, ⟨4, true, [4]⟩, ⟨5, false, [5]⟩]
    | 2 => [⟨3, false, [0]⟩, ⟨4, true, [1]⟩, ⟨5, true, [2]⟩]
    | _ => []
  size := fun p => if p = 1 then 6 else 3

theorem gapValid : Valid gapLayout [0, 1, 2, 3, 4, 5] (fun _ => 1) false where
  ranks := by decide
  positions := by decide
  once := by decide
  distinct := by decide
  known := by decide
  somewhere := by
    intro e he
    simp only [List.mem_cons, List.not_mem_nil, or_false] at he
    rcases he with rfl | rfl | rfl | rfl | rfl | rfl
    · exact ⟨0, by decide, ⟨0, true, [0]⟩, by decide, rfl, rfl⟩
    · exact ⟨0, by decide, ⟨1, true, [1]⟩, by decide, rfl, rfl⟩
    · exact ⟨1, by decide, ⟨2, true, [2]⟩, by decide, rfl, rfl⟩
    · exact ⟨1, by decide, ⟨3, true, [3]⟩, by decide, rfl, rfl⟩
    · exact ⟨1, by decide, ⟨4, true, [4]⟩, by decide, rfl, rfl⟩
    · exact ⟨2, by decide, ⟨5, true, [2]⟩, by decide, rfl, rfl⟩
  dofs := by decide
  restricted := by intro h; cases h

/-- C151 fails: cell 2, with the vertices 2 and 3, is on process 1 only, but the method of the base operator is called, since vertex 2 is on process 0 and vertex 3
on process 2. -/
theorem C151_gap_false : ∃ s, subdomainSum (allMessages gapLayout all all) = some s ∧
    (∀ q, q ≠ 1 → ¬ (OnProcess gapLayout q 2 0 ∧ OnProcess gapLayout q 3 0)) ∧
    [(2, 0), (3, 0)].map (fun q => pos gapLayout all 1 q.1 q.2) = [some 2, some 3] ∧ ∀ {R : Type} (f : R → R) (r : R), ovlpMethod (s 1) [2, 3] f r = f r := by
  obtain ⟨s, hs⟩ : ∃ s, subdomainSum (allMessages gapLayout all all) = some s := by
    refine ⟨_, communicate_eq scatterAdd (fun _ _ => rfl) _ _ ?_ _⟩
    unfold Fits
    decide +kernel
  have h2 : (subdomainSum (allMessages gapLayout all all)).map (fun s => (s 1 2, s 1 3)) = some (2, 2) := by decide +kernel
  rw [hs, Option.map_some] at h2
  refine ⟨s, hs, ?_, by decide, ?_⟩
  · intro q hq
    rcases q with _ | _ | _ | q
    · unfold OnProcess; decide
    · exact absurd rfl hq
    · unfold OnProcess; decide
    · rintro ⟨⟨c, hc, _⟩, _⟩
      cases hc
  · intro R f r
    unfold ovlpMethod entityIsInterior
    rw [if_neg]
    simp only [Option.some.injEq, Prod.mk.injEq] at h2
    simp [h2.1, h2.2]

/- Process 0 of that example: cell 1 is evaluated, cell 0 is evaluated, too, since process 1 has all cells. -/
example : (subdomainSum (allMessages gapLayout all all)).map (fun s => (List.range 3).map fun p => (List.range (gapLayout.size p)).map (s p)) =
    some [[2, 2, 2], [2, 2, 2, 2, 2, 2], [2, 2, 2]] := by decide +kernel

end Verif
