import Verif.Proofs.AmgBackends
import Verif.Spec.ParallelHybrid
import Verif.Props.ParallelSolvers
set_option linter.unusedSectionVars false
namespace Verif.AmgBackends

open Verif.ParallelHelper Verif.ParallelHelper.Spec Verif.ParallelSolvers Verif.ParallelSolvers.Spec

variable {K : Type} [CommRing K]

variable {L Lc : Layout} {ents cents : List Nat} {ndof cndof : Nat → Nat} {ib cib : Bool}

theorem globalMv_add (M : Nat → Nat → Nat → Nat → K) (X Y : Nat → Nat → K) (e k : Nat) :
    globalMv ents ndof M (fun e k => X e k + Y e k) e k = globalMv ents ndof M X e k + globalMv ents ndof M Y e k := by
  unfold globalMv sumDofs
  simp only [mul_add, Finset.sum_add_distrib]

/-- Update of the defect with a consistent correction. -/
theorem defect_update (hv : Valid L ents ndof ib) {cc : Nat → List Nat} {A : Nat → Nat → Nat → K} {allCells : Finset Nat}
    {cells : Nat → Finset Nat} {M : Nat → Nat → Nat → Nat → Nat → K} (hA : Assembled L cc A allCells cells M) {d v : Vecs K}
    {D V : Nat → Nat → K} (hd : DefectOn L cc d D) (hvv : ConsistentOn L all v V) :
    DefectOn L cc (fun p => zeroConstrained (cc p) fun i => d p i - mv (L.size p) (A p) (v p) i)
      fun e k => D e k - globalMv ents ndof (globalMatrix allCells M) V e k := by
  intro p hp c hc k i hk
  beta_reduce
  rw [zeroConstrained_eq]
  by_cases hi : i ∈ cc p
  · rw [if_pos hi, if_pos hi]
  · have h := C137_apply hv hA hvv hp hc hk
    unfold ovlpApply at h
    rw [zeroConstrained_eq, if_neg hi, if_neg hi] at h
    rw [if_neg hi, if_neg hi, h, hd p hp c hc k i hk, if_neg hi]

theorem smoother_total (hv : Valid L ents ndof ib) {cc : Nat → List Nat} (B : Nat → Nat → Nat → K)
    (dgprec : Nat → (Nat → K) → (Nat → K) → Nat → K) (hB : ∀ p d, dgprec p 0 d = mv (L.size p) (B p) d) {d : Vecs K} {D : Nat → Nat → K}
    (hd : DefectOn L cc d D) (e k : Nat) :
    total L all (fun p => dgprec p 0 (d p)) e k = globalMv ents ndof (totalMatrix L all fun p i j => if j ∈ cc p then 0 else B p i j) D e k := by
  unfold total globalMv totalMatrix
  simp only [Finset.sum_mul]
  rw [sumDofs_sum]
  refine Finset.sum_congr rfl fun p hp => ?_
  rw [Finset.mem_range] at hp
  cases hpos : pos L all p e k with
  | none => simp [sumDofs_zero]
  | some i =>
    simp only [Option.elim, hB]
    unfold mv
    rw [sum_positions hv hp]
    refine sumDofs_congr ?_
    intro e' _ k' _
    cases hpos' : pos L all p e' k' with
    | none => simp
    | some j =>
      obtain ⟨c, hc, _, rfl, hk'⟩ := of_pos hpos'
      simp only [Option.elim]
      rw [hd p hp c hc k' j hk']
      by_cases hjc : j ∈ cc p
      · rw [if_pos hjc, if_pos hjc, zero_mul, mul_zero]
      · rw [if_neg hjc, if_neg hjc]

/-- One smoothing step. -/
theorem parSmoothStep_eq (hv : Valid L ents ndof ib) (hfull : Full L ndof) {msgs : List Message} (hm : Exchange L all all msgs)
    {cc : Nat → List Nat} {A : Nat → Nat → Nat → K} {allCells : Finset Nat}
    {cells : Nat → Finset Nat} {M : Nat → Nat → Nat → Nat → Nat → K} (hA : Assembled L cc A allCells cells M) (B : Nat → Nat → Nat → K)
    (dgprec : Nat → (Nat → K) → (Nat → K) → Nat → K) (hB : ∀ p d, dgprec p 0 d = mv (L.size p) (B p) d) (X b Y : Nat → Nat → K)
    (s : Vecs K × Vecs K) (h1 : ConsistentOn L all s.1 fun e k => X e k + Y e k)
    (h2 : DefectOn L cc s.2 fun e k => b e k - globalMv ents ndof (globalMatrix allCells M) Y e k) :
    ∃ s', parSmoothStep L msgs cc A dgprec s = some s' ∧
      (ConsistentOn L all s'.1 fun e k => X e k + globalCorrection (globalMv ents ndof (globalMatrix allCells M))
        (globalMv ents ndof (totalMatrix L all fun p i j => if j ∈ cc p then 0 else B p i j)) b Y e k) ∧
      DefectOn L cc s'.2 fun e k => b e k - globalMv ents ndof (globalMatrix allCells M) (globalCorrection (globalMv ents ndof (globalMatrix allCells M))
        (globalMv ents ndof (totalMatrix L all fun p i j => if j ∈ cc p then 0 else B p i j)) b Y) e k := by
  obtain ⟨v, e1, e2⟩ := addUp_total hv hm (fits_full hfull hm) (fun p => dgprec p 0 (s.2 p))
  have e2' : ConsistentOn L all v (globalMv ents ndof (totalMatrix L all fun p i j => if j ∈ cc p then 0 else B p i j)
      fun e k => b e k - globalMv ents ndof (globalMatrix allCells M) Y e k) := by
    intro p hp c hc hf k i hk
    rw [e2 p hp c hc hf k i hk, smoother_total hv B dgprec hB h2]
  refine ⟨_, by unfold parSmoothStep; rw [e1]; rfl, ?_, ?_⟩
  · intro p hp c hc hf k i hk
    change s.1 p i + v p i = _
    rw [h1 p hp c hc hf k i hk, e2' p hp c hc hf k i hk]
    unfold globalCorrection; ring
  · have := defect_update hv hA h2 e2'
    intro p hp c hc k i hk
    refine (this p hp c hc k i hk).trans ?_
    unfold globalCorrection
    beta_reduce
    rw [globalMv_add]
    congr 1; ring

theorem parSmooth_eq (hv : Valid L ents ndof ib) (hfull : Full L ndof) {msgs : List Message} (hm : Exchange L all all msgs)
    {cc : Nat → List Nat} {A : Nat → Nat → Nat → K} {allCells : Finset Nat}
    {cells : Nat → Finset Nat} {M : Nat → Nat → Nat → Nat → Nat → K} (hA : Assembled L cc A allCells cells M) (B : Nat → Nat → Nat → K)
    (dgprec : Nat → (Nat → K) → (Nat → K) → Nat → K) (hB : ∀ p d, dgprec p 0 d = mv (L.size p) (B p) d) (X b : Nat → Nat → K) (n : Nat) :
    ∀ (Y : Nat → Nat → K) (s : Vecs K × Vecs K), (ConsistentOn L all s.1 fun e k => X e k + Y e k) →
    (DefectOn L cc s.2 fun e k => b e k - globalMv ents ndof (globalMatrix allCells M) Y e k) →
    ∃ s', parSmooth L msgs cc A dgprec n s = some s' ∧
      (ConsistentOn L all s'.1 fun e k => X e k + (globalCorrection (globalMv ents ndof (globalMatrix allCells M))
        (globalMv ents ndof (totalMatrix L all fun p i j => if j ∈ cc p then 0 else B p i j)) b)^[n] Y e k) ∧
      DefectOn L cc s'.2 fun e k => b e k - globalMv ents ndof (globalMatrix allCells M) ((globalCorrection (globalMv ents ndof (globalMatrix allCells M))
        (globalMv ents ndof (totalMatrix L all fun p i j => if j ∈ cc p then 0 else B p i j)) b)^[n] Y) e k := by
  induction n with
  | zero => intro Y s h1 h2; exact ⟨s, rfl, h1, h2⟩
  | succ n ih =>
    intro Y s h1 h2
    obtain ⟨s', e0, e1, e2⟩ := parSmoothStep_eq hv hfull hm hA B dgprec hB X b Y s h1 h2
    obtain ⟨s'', f0, f1, f2⟩ := ih _ s' e1 e2
    refine ⟨s'', ?_, f1, f2⟩
    rw [parSmooth, e0]
    exact f0

/-- Prolongation of a consistent vector. -/
theorem prolongate (hc : Valid Lc cents cndof cib) (hprocs : Lc.procs = L.procs) {P : Nat → Nat → Nat → K} {G : Nat → Nat → Nat → Nat → K}
    (hP : Embedding L Lc P G) {z : Vecs K} {Z : Nat → Nat → K} (hz : ConsistentOn Lc all z Z) (hv : Valid L ents ndof ib) :
    ConsistentOn L all (fun p => mv (Lc.size p) (P p) (z p)) (globalMv cents cndof G Z) := by
  intro p hp c hcc _ k i hk
  have hpos : pos L all p c.ent k = some i := by rw [pos_eq hv hp hcc rfl k, hk]
  change mv (Lc.size p) (P p) (z p) i = _
  unfold mv
  rw [mv_eq hc hz (hprocs ▸ hp) (P p i) (fun c _ hf => by cases hf)]
  unfold globalMv
  refine sumDofs_congr ?_
  intro e' _ k' _
  congr 1
  cases hpos' : pos Lc all p e' k' with
  | some j => exact hP.entry p hp _ _ _ _ _ _ hpos hpos'
  | none =>
    by_contra hne
    obtain ⟨j, hj⟩ := hP.closed p hp _ _ _ e' k' hpos (fun h => hne (by rw [h]; rfl))
    rw [hj] at hpos'; cases hpos'

/-- Restriction of the defect: the sum of the contributions of the processes. -/
theorem restrict_total (hv : Valid L ents ndof ib) (hprocs : Lc.procs = L.procs) {P : Nat → Nat → Nat → K} {G : Nat → Nat → Nat → Nat → K}
    (hP : Embedding L Lc P G) {cc : Nat → List Nat}
    (hone : ∀ e ∈ ents, ∀ k, k < ndof e → ∃ p, p < L.procs ∧ (∃ i, pos L all p e k = some i ∧ i ∉ cc p) ∧
      ∀ q, q < L.procs → q ≠ p → ∀ i, pos L all q e k = some i → i ∈ cc q)
    {d : Vecs K} {D : Nat → Nat → K} (hd : DefectOn L cc d D) (e' k' : Nat)  :
    total Lc all (fun p => mtv (L.size p) (P p) (d p)) e' k' = sumDofs ents ndof fun e k => G e k e' k' * D e k := by
  have hterm : ∀ p ∈ Finset.range Lc.procs, (pos Lc all p e' k').elim 0 (fun j => mtv (L.size p) (P p) (d p) j) =
      sumDofs ents ndof fun e k => (pos L all p e k).elim 0 fun i => if i ∈ cc p then 0 else G e k e' k' * D e k := by
    intro p hp
    rw [Finset.mem_range, hprocs] at hp
    cases hpos' : pos Lc all p e' k' with
    | none =>
      simp only [Option.elim]
      symm
      refine (sumDofs_congr (h' := fun _ _ => 0) ?_).trans sumDofs_zero
      intro e _ k _
      cases hpos : pos L all p e k with
      | none => rfl
      | some i =>
        have hG : G e k e' k' = 0 := by
          by_contra hne
          obtain ⟨j, hj⟩ := hP.closed p hp _ _ _ e' k' hpos hne
          rw [hj] at hpos'; cases hpos'
        simp [hG]
    | some j =>
      simp only [Option.elim]
      unfold mtv
      rw [sum_positions hv hp]
      refine sumDofs_congr ?_
      intro e _ k _
      cases hpos : pos L all p e k with
      | none => rfl
      | some i =>
        obtain ⟨c, hc, _, rfl, hk⟩ := of_pos hpos
        simp only [Option.elim]
        rw [hP.entry p hp _ _ _ _ _ _ hpos hpos', hd p hp c hc k i hk]
        by_cases hi : i ∈ cc p
        · rw [if_pos hi, if_pos hi, mul_zero]
        · rw [if_neg hi, if_neg hi]
  unfold total
  rw [Finset.sum_congr rfl hterm, ← sumDofs_sum]
  refine sumDofs_congr ?_
  intro e he k hk
  obtain ⟨p, hp, ⟨i, hi1, hi2⟩, hq⟩ := hone e he k hk
  rw [Finset.sum_eq_single p]
  · rw [hi1]; simp [hi2]
  · intro q hq1 hne
    rw [Finset.mem_range, hprocs] at hq1
    cases hpos : pos L all q e k with
    | none => rfl
    | some j => simp [hq q hq1 hne j hpos]
  · intro h; exact absurd (Finset.mem_range.2 (hprocs ▸ hp)) h

/-- The correction in the subspace. -/
theorem parCoarseStep_eq (hv : Valid L ents ndof ib) (hvc : Valid Lc cents cndof cib) (hfullc : Full Lc cndof) {cmsgs : List Message}
    (hmc : Exchange Lc all all cmsgs) (hprocs : Lc.procs = L.procs)
    {cc ccg copies ranks : Nat → List Nat} {A P : Nat → Nat → Nat → K} {allCells : Finset Nat}
    {cells : Nat → Finset Nat} {M : Nat → Nat → Nat → Nat → Nat → K} (hA : Assembled L cc A allCells cells M) {G : Nat → Nat → Nat → Nat → K}
    (hP : Embedding L Lc P G)
    (hone : ∀ e ∈ ents, ∀ k, k < ndof e → ∃ p, p < L.procs ∧ (∃ i, pos L all p e k = some i ∧ i ∉ cc p) ∧
      ∀ q, q < L.procs → q ≠ p → ∀ i, pos L all q e k = some i → i ∈ cc q)
    (howned : ∀ p, p < L.procs → ∀ i, i < L.size p → i ∉ cc p → owned p (ranks p) i = true)
    (cgprec : Vecs K → Vecs K → Vecs K) (Cop : (Nat → Nat → K) → Nat → Nat → K)
    (hC : ∀ cgd D, DefectOn Lc (fun p => ccg p ++ copies p) cgd D → ConsistentOn Lc all (cgprec 0 cgd) (Cop D)) (X b Y : Nat → Nat → K)
    (s : Vecs K × Vecs K) (h1 : ConsistentOn L all s.1 fun e k => X e k + Y e k)
    (h2 : DefectOn L cc s.2 fun e k => b e k - globalMv ents ndof (globalMatrix allCells M) Y e k) :
    ∃ s', parCoarseStep L Lc cmsgs cc ccg copies ranks A P cgprec s = some s' ∧
      (ConsistentOn L all s'.1 fun e k => X e k + globalCorrection (globalMv ents ndof (globalMatrix allCells M))
        (fun D => globalMv cents cndof G (Cop fun e' k' => sumDofs ents ndof fun e k => G e k e' k' * D e k)) b Y e k) ∧
      DefectOn L cc s'.2 fun e k => b e k - globalMv ents ndof (globalMatrix allCells M) (globalCorrection (globalMv ents ndof (globalMatrix allCells M))
        (fun D => globalMv cents cndof G (Cop fun e' k' => sumDofs ents ndof fun e k => G e k e' k' * D e k)) b Y) e k := by
  have h2' : DefectOn L cc (fun p => maskForeign ranks p (s.2 p)) fun e k => b e k - globalMv ents ndof (globalMatrix allCells M) Y e k := by
    intro p hp c hc k i hk
    change maskForeign ranks p (s.2 p) i = _
    unfold maskForeign
    by_cases hi : i ∈ cc p
    · rw [if_pos hi, h2 p hp c hc k i hk, if_pos hi]; simp
    · have hlt : i < L.size p := pos_lt_size hv hp (show pos L all p c.ent k = some i by rw [pos_eq hv hp hc rfl k, hk])
      rw [howned p hp i hlt hi, h2 p hp c hc k i hk]; simp
  obtain ⟨cgd, e1, e2⟩ := addUp_total hvc hmc (fits_full hfullc hmc) (fun p => mtv (L.size p) (P p) (maskForeign ranks p (s.2 p)))
  have hcgd : DefectOn Lc (fun p => ccg p ++ copies p) (fun p => zeroConstrained (copies p) (zeroConstrained (ccg p) (cgd p)))
      fun e' k' => sumDofs ents ndof fun e k => G e k e' k' * (b e k - globalMv ents ndof (globalMatrix allCells M) Y e k) := by
    intro p hp c hc k i hk
    beta_reduce
    rw [zeroConstrained_eq, zeroConstrained_eq, e2 p hp c hc rfl k i hk, restrict_total hv hprocs hP hone h2']
    by_cases ha : i ∈ ccg p <;> by_cases hb : i ∈ copies p <;> simp [ha, hb]
  have hz := hC _ _ hcgd
  have hvv := prolongate hvc hprocs hP hz hv
  refine ⟨_, by unfold parCoarseStep; simp only [e1]; rfl, ?_, ?_⟩
  · intro p hp c hc hf k i hk
    change s.1 p i + mv (Lc.size p) (P p) (cgprec 0 _ p) i = _
    have h3 := hvv p hp c hc hf k i hk
    beta_reduce at h3
    rw [h1 p hp c hc hf k i hk, h3]
    unfold globalCorrection; ring
  · have := defect_update hv hA h2' hvv
    intro p hp c hc k i hk
    refine (this p hp c hc k i hk).trans ?_
    unfold globalCorrection
    beta_reduce
    rw [globalMv_add]
    congr 1; ring
end Verif.AmgBackends
