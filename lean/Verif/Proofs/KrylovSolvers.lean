import Verif.Spec.KrylovSolvers
import Verif.Proofs.ParallelSolvers
/-
Lemmas about running iterative solvers in parallel.
-/
namespace Verif
open ParallelHelper ParallelHelper.Spec ParallelSolvers ParallelSolvers.Spec KrylovSolvers KrylovSolvers.Spec

/-- One backend simulates another: `R` relates their vectors. -/
structure Simulates {K V W : Type} (B : Backend K V) (G : Backend K W) (R : Role → V → W → Prop) : Prop where
  zero : ∀ r, R r B.zero G.zero
  scale : ∀ r a v w, R r v w → R r (B.scale a v) (G.scale a w)
  axpy : ∀ r a x x' y y', R r x x' → R r y y' → R r (B.axpy a x y) (G.axpy a x' y')
  apply : ∀ x x', R .solution x x' → ∃ y y', B.apply x = some y ∧ G.apply x' = some y' ∧ R .defect y y'
  applyscaleadd : ∀ a x x' y y', R .solution x x' → R .rhs y y' →
    ∃ z z', B.applyscaleadd a x y = some z ∧ G.applyscaleadd a x' y' = some z' ∧ R .defect z z'
  prec : ∀ d d', R .defect d d' → ∃ v v', B.prec d = some v ∧ G.prec d' = some v' ∧ R .solution v v'
  dot : ∀ r r' x x' y y', r ≠ .rhs → r' ≠ .rhs → R r x x' → R r' y y' → B.dot x y = G.dot x' y'

theorem related_update {V W : Type} {R : Role → V → W → Prop} {ρ : Nat → Role} {s : Nat → V} {t : Nat → W} (h : ∀ j, R (ρ j) (s j) (t j)) (d : Nat)
    (r : Role) (v : V) (w : W) (hv : R r v w) : ∀ j, R (Function.update ρ d r j) (Function.update s d v j) (Function.update t d w j) := by
  intro j
  by_cases hj : j = d
  · subst hj; simpa using hv
  · rw [Function.update_of_ne hj, Function.update_of_ne hj, Function.update_of_ne hj]; exact h j

theorem related_update' {V W : Type} {R : Role → V → W → Prop} {ρ : Nat → Role} {s : Nat → V} {t : Nat → W} (h : ∀ j, R (ρ j) (s j) (t j)) (d : Nat)
    (v : V) (w : W) (hv : R (ρ d) v w) : ∀ j, R (ρ j) (Function.update s d v j) (Function.update t d w j) := by
  have := related_update h d (ρ d) v w hv
  rwa [Function.update_eq_self] at this

theorem simulation {K V W : Type} {B : Backend K V} {G : Backend K W} {R : Role → V → W → Prop} (hB : Simulates B G R) {out : Nat} {ρ : Nat → Role}
    {P : Solver K} (hP : Proper out ρ P) : ∀ (s : Nat → V) (t : Nat → W), (∀ j, R (ρ j) (s j) (t j)) →
    ∃ s' t' l, run B P s = some (s', l) ∧ run G P t = some (t', l) ∧ R .solution (s' out) (t' out) := by
  induction hP with
  | done h => intro s t hs; exact ⟨s, t, [], rfl, rfl, h ▸ hs out⟩
  | clear r _ ih => intro s t hs; exact ih _ _ (related_update hs _ r _ _ (hB.zero r))
  | copy _ ih => intro s t hs; exact ih _ _ (related_update hs _ _ _ _ (hs _))
  | scale _ ih => intro s t hs; exact ih _ _ (related_update' hs _ _ _ (hB.scale _ _ _ _ (hs _)))
  | axpy h _ ih => intro s t hs; exact ih _ _ (related_update' hs _ _ _ (hB.axpy _ _ _ _ _ _ (h ▸ hs _) (hs _)))
  | apply h _ ih =>
    intro s t hs
    obtain ⟨y, y', h1, h2, h3⟩ := hB.apply _ _ (h ▸ hs _)
    obtain ⟨s', t', l, e1, e2, e3⟩ := ih _ _ (related_update hs _ _ _ _ h3)
    exact ⟨s', t', l, by simp only [run, h1, Option.bind_some, e1], by simp only [run, h2, Option.bind_some, e2], e3⟩
  | @applyscaleadd ρ a d x n h h' _ ih =>
    intro s t hs
    obtain ⟨y, y', h1, h2, h3⟩ := hB.applyscaleadd a (s x) (t x) (s d) (t d) (h ▸ hs x) (h' ▸ hs d)
    obtain ⟨s', t', l, e1, e2, e3⟩ := ih _ _ (related_update hs _ _ _ _ h3)
    exact ⟨s', t', l, by simp only [run, h1, Option.bind_some, e1], by simp only [run, h2, Option.bind_some, e2], e3⟩
  | prec h _ ih =>
    intro s t hs
    obtain ⟨y, y', h1, h2, h3⟩ := hB.prec _ _ (h ▸ hs _)
    obtain ⟨s', t', l, e1, e2, e3⟩ := ih _ _ (related_update hs _ _ _ _ h3)
    exact ⟨s', t', l, by simp only [run, h1, Option.bind_some, e1], by simp only [run, h2, Option.bind_some, e2], e3⟩
  | @dot ρ x y n h h' _ ih =>
    intro s t hs
    have hd := hB.dot _ _ _ _ _ _ h h' (hs x) (hs y)
    obtain ⟨s', t', l, e1, e2, e3⟩ := ih (B.dot (s x) (s y)) s t hs
    refine ⟨s', t', B.dot (s x) (s y) :: l, ?_, ?_, e3⟩
    · simp only [run]; rw [e1]; rfl
    · simp only [run]; rw [← hd, e2]; rfl

section
variable {L : Layout} {ents : List Nat} {ndof : Nat → Nat} {ib : Bool} {K : Type} [CommRing K]

theorem part_eq (hv : Valid L ents ndof ib) {p : Nat} (hp : p < L.procs) {c : Copy} (hc : c ∈ L.copies p) {k i : Nat} (hk : c.dofs[k]? = some i)
    (D : Nat → Nat → K) : part L ents ndof p D i = D c.ent k := by
  have hpos : pos L all p c.ent k = some i := by rw [pos_eq hv hp hc rfl k, hk]
  obtain ⟨he, hlt⟩ := ndof_of_pos hv hp hpos
  unfold part sumDofs
  rw [Finset.sum_eq_single c.ent]
  · rw [Finset.sum_eq_single k]
    · exact if_pos hpos
    · intro k' _ hne
      exact if_neg fun h => hne (pos_inj hv hp h hpos).2
    · intro h; exact absurd (Finset.mem_range.2 hlt) h
  · intro e _ hne
    refine Finset.sum_eq_zero fun k' _ => if_neg fun h => hne (pos_inj hv hp h hpos).1
  · intro h; exact absurd (List.mem_toFinset.2 he) h

/-- The vectors of the nonoverlapping backends. -/
def NovlpRel (L : Layout) : Role → Vecs K → (Nat → Nat → K) → Prop
  | .rhs, y, Y => ∀ e k, total L Copy.ib y e k = Y e k
  | .defect, y, Y => ConsistentOn L Copy.ib y Y
  | .solution, y, Y => ConsistentOn L Copy.ib y Y

theorem novlp_simulates (hv : Valid L ents ndof ib) {rmsgs : List Msg} (hr : Interface L ib rmsgs) {msgs : List Message}
    (hm : Exchange L Copy.ib Copy.ib msgs) (A : Nat → Nat → Nat → K)
    (hA : ∀ p, p < L.procs → ∀ c ∈ L.copies p, c.ib = false → ∀ j ∈ c.dofs, ∀ i, A p i j = 0) (prec : Vecs K → Option (Vecs K))
    (gprec : (Nat → Nat → K) → Nat → Nat → K) (hp : ∀ d D, ConsistentOn L Copy.ib d D → ∃ v, prec d = some v ∧ ConsistentOn L Copy.ib v (gprec D)) :
    Simulates (vectors (novlpApply L msgs A) (fun a x y => novlpApplyscaleadd L msgs a A x y) prec (ParallelSolvers.dot L (rankPartition L rmsgs)))
      (plain ents ndof (totalMatrix L Copy.ib A) gprec) (NovlpRel L) := by
  constructor
  · intro r
    cases r
    · intro e k
      show total L Copy.ib (fun _ _ => (0 : K)) e k = 0
      unfold total
      refine Finset.sum_eq_zero fun p _ => ?_
      cases pos L Copy.ib p e k <;> rfl
    all_goals
      intro p _ c _ _ k i _
      rfl
  · intro r a v w h
    cases r
    · intro e k
      show total L Copy.ib (fun p i => a * v p i) e k = a * w e k
      rw [total_smul, h e k]
    all_goals
      intro p hp c hc hf k i hk
      show a * v p i = a * w c.ent k
      rw [h p hp c hc hf k i hk]
  · intro r a x x' y y' hx hy
    cases r
    · intro e k
      show total L Copy.ib (fun p i => y p i + a * x p i) e k = y' e k + a * x' e k
      rw [total_add (L := L) Copy.ib y (fun p i => a * x p i), total_smul, hx e k, hy e k]
    all_goals
      intro p hp c hc hf k i hk
      show y p i + a * x p i = y' c.ent k + a * x' c.ent k
      rw [hx p hp c hc hf k i hk, hy p hp c hc hf k i hk]
  · intro x x' hx
    obtain ⟨y, h1, h2⟩ := addUp_total hv hm (fits_ib hv hm) (fun p => mv (L.size p) (A p) (x p))
    refine ⟨y, _, h1, rfl, ?_⟩
    intro p hp c hc hf k i hk
    rw [h2 p hp c hc hf k i hk, total_mv hv hx A hA]
  · intro a x x' y y' hx hy
    obtain ⟨z, h1, h2⟩ := addUp_total hv hm (fits_ib hv hm) (fun p => usmv (L.size p) a (A p) (x p) (y p))
    refine ⟨z, _, h1, rfl, ?_⟩
    intro p hp c hc hf k i hk
    rw [h2 p hp c hc hf k i hk]
    simp only [usmv_eq]
    rw [total_add (L := L) Copy.ib y (fun p i => a * mv (L.size p) (A p) (x p) i), total_smul Copy.ib a (fun p => mv (L.size p) (A p) (x p)), total_mv hv hx A hA, hy]
  · intro d d' hd
    obtain ⟨v, h1, h2⟩ := hp d d' hd
    exact ⟨v, _, h1, rfl, h2⟩
  · intro r r' x x' y y' h h' hx hy
    refine dot_eq hv hr ?_ ?_
    · cases r
      · exact absurd rfl h
      · exact hx
      · exact hx
    · cases r'
      · exact absurd rfl h'
      · exact hy
      · exact hy

/-- The vectors of the overlapping backends. -/
def OvlpRel (L : Layout) (cc : Nat → List Nat) (fixed : Nat → Nat → Prop) : Role → Vecs K → (Nat → Nat → K) → Prop
  | .rhs, y, Y => ∀ p, p < L.procs → ∀ c ∈ L.copies p, ∀ k i : Nat, c.dofs[k]? = some i → i ∉ cc p → y p i = Y c.ent k
  | .defect, y, Y => (∀ p, p < L.procs → ∀ c ∈ L.copies p, ∀ k i : Nat, c.dofs[k]? = some i → y p i = if i ∈ cc p then 0 else Y c.ent k) ∧
      ∀ e k, fixed e k → Y e k = 0
  | .solution, y, Y => ConsistentOn L all y Y

/-- The product with complete rows. -/
theorem mv_assembled (hv : Valid L ents ndof ib) {cc : Nat → List Nat} {A : Nat → Nat → Nat → K} {allCells : Finset Nat} {cells : Nat → Finset Nat}
    {M : Nat → Nat → Nat → Nat → Nat → K} (hA : Assembled L cc A allCells cells M) {x : Vecs K} {X : Nat → Nat → K} (hx : ConsistentOn L all x X)
    {p : Nat} (hp : p < L.procs) {c : Copy} (hc : c ∈ L.copies p) {k i : Nat} (hk : c.dofs[k]? = some i) (hi : i ∉ cc p) :
    mv (L.size p) (A p) (x p) i = globalMv ents ndof (globalMatrix allCells M) X c.ent k := by
  unfold mv
  rw [mv_eq hv hx hp (A p i) (fun c _ hf => by cases hf)]
  unfold globalMv
  refine sumDofs_congr ?_
  intro e' _ k' _
  congr 1
  have hpos : pos L all p c.ent k = some i := by rw [pos_eq hv hp hc rfl k, hk]
  have hsub : globalMatrix allCells M c.ent k e' k' = ∑ t ∈ cells p, M t c.ent k e' k' := by
    unfold globalMatrix
    symm
    exact Finset.sum_subset (hA.sub p hp) (fun t ht hn => hA.complete p hp c.ent k i hpos hi t ht hn e' k')
  rw [hsub]
  cases hpos' : pos L all p e' k' with
  | some j => exact hA.entry p hp c.ent k i e' k' j hpos hi hpos'
  | none =>
    symm
    refine Finset.sum_eq_zero ?_
    intro t ht
    by_contra hne
    obtain ⟨j, hj⟩ := hA.closed p hp t ht c.ent k e' k' hne
    rw [hj] at hpos'
    cases hpos'

theorem ovlp_simulates (hv : Valid L ents ndof ib) {rmsgs : List Msg} (hr : Interface L ib rmsgs) {cc : Nat → List Nat} {A : Nat → Nat → Nat → K}
    {allCells : Finset Nat} {cells : Nat → Finset Nat} {M : Nat → Nat → Nat → Nat → Nat → K} (hA : Assembled L cc A allCells cells M)
    {fixed : Nat → Nat → Prop} (hC : Constrained L cc fixed) (prec : Vecs K → Option (Vecs K)) (gprec : (Nat → Nat → K) → Nat → Nat → K)
    (hp : ∀ d D, OvlpRel L cc fixed .defect d D → ∃ v, prec d = some v ∧ ConsistentOn L all v (gprec D)) :
    Simulates (vectors (fun x => some (ovlpApply L cc A x)) (fun a x y => some (ovlpApplyscaleadd L cc a A x y)) prec
        (ParallelSolvers.dot L (rankPartition L rmsgs)))
      (eliminated ents ndof (globalMatrix allCells M) fixed gprec) (OvlpRel L cc fixed) := by
  classical
  have hib : ∀ r, r ≠ Role.rhs → ∀ (y : Vecs K) (Y : Nat → Nat → K), OvlpRel L cc fixed r y Y → ConsistentOn L Copy.ib y Y := by
    intro r h y Y hy
    cases r
    · exact absurd rfl h
    · intro p hp c hc hf k i hk
      rw [hy.1 p hp c hc k i hk]
      split
      · rename_i hi
        exact (hy.2 _ _ (hC.inner p hp c hc hf k i hk hi)).symm
      · rfl
    · intro p hp c hc hf k i hk
      exact hy p hp c hc rfl k i hk
  constructor
  · intro r
    cases r
    · intro p _ c _ k i _ _; rfl
    · refine ⟨?_, fun _ _ _ => rfl⟩
      intro p _ c _ k i _
      show (0 : K) = if i ∈ cc p then 0 else 0
      split <;> rfl
    · intro p _ c _ _ k i _; rfl
  · intro r a v w h
    cases r
    · intro p hp c hc k i hk hi
      show a * v p i = a * w c.ent k
      rw [h p hp c hc k i hk hi]
    · refine ⟨?_, fun e k hf => ?_⟩
      · intro p hp c hc k i hk
        show a * v p i = if i ∈ cc p then 0 else a * w c.ent k
        rw [h.1 p hp c hc k i hk]
        split <;> simp
      · show a * w e k = 0
        rw [h.2 e k hf, mul_zero]
    · intro p hp c hc hf k i hk
      show a * v p i = a * w c.ent k
      rw [h p hp c hc hf k i hk]
  · intro r a x x' y y' hx hy
    cases r
    · intro p hp c hc k i hk hi
      show y p i + a * x p i = y' c.ent k + a * x' c.ent k
      rw [hx p hp c hc k i hk hi, hy p hp c hc k i hk hi]
    · refine ⟨?_, fun e k hf => ?_⟩
      · intro p hp c hc k i hk
        show y p i + a * x p i = if i ∈ cc p then 0 else y' c.ent k + a * x' c.ent k
        rw [hx.1 p hp c hc k i hk, hy.1 p hp c hc k i hk]
        split <;> simp
      · show y' e k + a * x' e k = 0
        rw [hx.2 e k hf, hy.2 e k hf, mul_zero, add_zero]
    · intro p hp c hc hf k i hk
      show y p i + a * x p i = y' c.ent k + a * x' c.ent k
      rw [hx p hp c hc hf k i hk, hy p hp c hc hf k i hk]
  · intro x x' hx
    refine ⟨_, _, rfl, rfl, ?_, fun e k hf => if_pos hf⟩
    intro p hp c hc k i hk
    unfold ovlpApply
    rw [zeroConstrained_eq]
    by_cases hi : i ∈ cc p
    · rw [if_pos hi, if_pos hi]
    · rw [if_neg hi, if_neg hi]
      refine Eq.trans ?_ (if_neg fun hf => hi (hC.everywhere p hp c hc k i hk hf)).symm
      exact mv_assembled hv hA hx hp hc hk hi
  · intro a x x' y y' hx hy
    refine ⟨_, _, rfl, rfl, ?_, fun e k hf => if_pos hf⟩
    intro p hp c hc k i hk
    unfold ovlpApplyscaleadd
    rw [zeroConstrained_eq]
    by_cases hi : i ∈ cc p
    · rw [if_pos hi, if_pos hi]
    · rw [if_neg hi, if_neg hi, usmv_eq]
      refine Eq.trans ?_ (if_neg fun hf => hi (hC.everywhere p hp c hc k i hk hf)).symm
      show y p i + a * mv (L.size p) (A p) (x p) i = _
      rw [mv_assembled hv hA hx hp hc hk hi, hy p hp c hc k i hk hi]
  · intro d d' hd
    obtain ⟨v, h1, h2⟩ := hp d d' hd
    exact ⟨v, _, h1, rfl, h2⟩
  · intro r r' x x' y y' h h' hx hy
    exact dot_eq hv hr (hib r h x x' hx) (hib r' h' y y' hy)

/-- The additive Schwarz method on consistent defects. -/
theorem schwarz_total (hv : Valid L ents ndof ib) (cc : Nat → List Nat) (fixed : Nat → Nat → Prop) (solve : Nat → (Nat → K) → Nat → K)
    (hs : LocalSolvers L solve) (d : Vecs K) (D : Nat → Nat → K) (hd : OvlpRel L cc fixed .defect d D) (g : Nat → (Nat → K))
    (hg : ∀ p, p < L.procs → ∀ i, i < L.size p → g p i = d p i) :
    total L all (fun p => solve p (g p)) = schwarz L ents ndof cc solve D := by
  funext e k
  unfold schwarz total
  refine Finset.sum_congr rfl fun p hp => ?_
  rw [Finset.mem_range] at hp
  cases hpos : pos L all p e k with
  | none => rfl
  | some i =>
    refine hs p hp _ _ ?_ i (pos_lt_size hv hp hpos)
    intro j hj
    obtain ⟨c, hc, k', hk'⟩ := exists_pos hv hp hj
    rw [hg p hp j hj, hd.1 p hp c hc k' j hk', part_eq hv hp hc hk']

end

end Verif
