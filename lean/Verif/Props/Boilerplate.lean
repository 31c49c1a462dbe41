import Verif.Spec.Boilerplate
import Verif.Props.ParallelSolvers
import Verif.Props.Constraints
import Mathlib.Algebra.Ring.Int.Defs
/-
C199: setting and copying constrained DOFs with the convenience spaces.
C200: the grids of the convenience classes.
-/
namespace Verif

open ParallelHelper ParallelHelper.Spec ParallelSolvers ParallelSolvers.Spec Constraints Boilerplate Boilerplate.Spec

section
variable {L : Layout} {ents : List Nat} {ndof : Nat → Nat} {ib : Bool} {K : Type} [CommRing K]

/-- After `make_consistent` every copy of a DOF has the value of the owner of the DOF. -/
theorem makeConsistent_owner (hv : Valid L ents ndof ib) {rmsgs : List Msg} (hr : Interface L ib rmsgs) {msgs : List Message}
    (hm : Exchange L Copy.ib all msgs) (x : Vecs K) :
    ∃ y, makeConsistent .overlapping L msgs (rankPartition L rmsgs) x = some y ∧ ∀ p, p < L.procs → ∀ c ∈ L.copies p, ∀ k i : Nat,
      c.dofs[k]? = some i → ∃ o c' i', Lowest L c.ent o ∧ c' ∈ L.copies o ∧ c'.ent = c.ent ∧ c'.dofs[k]? = some i' ∧ y p i = x o i' := by
  obtain ⟨y, h1, h2⟩ := C139_owner hv hr hm (fun _ v => v) x
  unfold makeConsistent
  unfold restrictedApply at h1
  dsimp only at h1 ⊢
  by_cases hp1 : L.procs > 1
  · rw [if_pos hp1] at h1 ⊢
    exact ⟨y, h1, h2⟩
  · rw [if_neg hp1] at h1 ⊢
    refine ⟨_, rfl, ?_⟩
    intro p hp c hc k i hk
    obtain ⟨o, c', i', ho, hc', he, hk', hy⟩ := h2 p hp c hc k i hk
    refine ⟨o, c', i', ho, hc', he, hk', ?_⟩
    rw [← hy]
    have hyx : y = fun p => x p := (Option.some.inj h1).symm
    obtain ⟨r, hr1, hr2⟩ := rankPartition_eq hv hr hp hc (List.mem_of_getElem? hk)
    have hrp : r = p := by have := hr1.1; omega
    rw [hyx]
    simp [maskForeign, owned, hr2, hrp]

open Classical in
/-- If the entries at constrained DOFs of each process are those of the global vector `A` and the other entries those of `B`, then, made consistent,
the vectors are the restrictions of one global vector: `A` at DOFs that their owner constrains, `B` at all others. -/
theorem makeConsistent_blend (hv : Valid L ents ndof ib) {rmsgs : List Msg} (hr : Interface L ib rmsgs) {msgs : List Message}
    (hm : Exchange L Copy.ib all msgs) (cc : Boilerplate.Constraints K) (x : Vecs K) (A B : Nat → Nat → K)
    (hx : ∀ p, p < L.procs → ∀ c ∈ L.copies p, c.ib = true → ∀ k i : Nat, c.dofs[k]? = some i →
      x p i = if (cc p).Constrained i then A c.ent k else B c.ent k) :
    ∃ y, makeConsistent .overlapping L msgs (rankPartition L rmsgs) x = some y ∧
      ConsistentOn L all y fun e k => if OwnerConstrained L cc e k then A e k else B e k := by
  obtain ⟨y, h1, h2⟩ := makeConsistent_owner hv hr hm x
  refine ⟨y, h1, ?_⟩
  intro p hp c hc _ k i hk
  obtain ⟨o, c', i', ho, hc', he, hk', hy⟩ := h2 p hp c hc k i hk
  rw [hy]
  obtain ⟨c₂, hc₂, he₂, hib₂⟩ := ho.2.1
  have hcc : c₂ = c' := ent_unique (hv.once o ho.1) hc₂ hc' (by rw [he₂, he])
  rw [hcc] at hib₂
  rw [hx o ho.1 c' hc' hib₂ k i' hk', he]
  have hiff : OwnerConstrained L cc c.ent k ↔ (cc o).Constrained i' := by
    constructor
    · rintro ⟨o₁, c₁, i₁, ho₁, hc₁, he₁, hk₁, hcon⟩
      have hoo := lowest_unique ho₁ ho
      subst hoo
      have : c₁ = c' := ent_unique (hv.once o₁ ho.1) hc₁ hc' (by rw [he₁, he])
      subst this
      rw [hk'] at hk₁
      rw [Option.some.inj hk₁]
      exact hcon
    · intro h
      exact ⟨o, c', i', ho, hc', he, hk', h⟩
  beta_reduce
  by_cases h : (cc o).Constrained i'
  · rw [if_pos h, if_pos (hiff.2 h)]
  · rw [if_neg h, if_neg (fun h' => h (hiff.1 h'))]

open Classical in
/-- C199, overlapping spaces.  For every distribution, every order of delivery and all constraints of the processes (whether or not the processes
agree which DOFs they constrain): called on all processes, each of the four functions succeeds and gives vectors that agree on all copies.  A DOF counts
as constrained exactly if the process that owns it constrains it. -/
theorem C199_overlapping (hv : Valid L ents ndof ib) {rmsgs : List Msg} (hr : Interface L ib rmsgs) {msgs : List Message}
    (hm : Exchange L Copy.ib all msgs) (cc : Boilerplate.Constraints K) (v : K) {x z : Vecs K} {X Z : Nat → Nat → K}
    (hx : ConsistentOn L Copy.ib x X) (hz : ConsistentOn L Copy.ib z Z) :
    (∃ y, setConstrainedDOFS .overlapping L msgs (rankPartition L rmsgs) cc x v = some y ∧
      ConsistentOn L all y fun e k => if OwnerConstrained L cc e k then v else X e k) ∧
    (∃ y, setNonConstrainedDOFS .overlapping L msgs (rankPartition L rmsgs) cc x v = some y ∧
      ConsistentOn L all y fun e k => if OwnerConstrained L cc e k then X e k else v) ∧
    (∃ y, copyConstrainedDOFS .overlapping L msgs (rankPartition L rmsgs) cc x z = some y ∧
      ConsistentOn L all y fun e k => if OwnerConstrained L cc e k then X e k else Z e k) ∧
    (∃ y, copyNonConstrainedDOFS .overlapping L msgs (rankPartition L rmsgs) cc x z = some y ∧
      ConsistentOn L all y fun e k => if OwnerConstrained L cc e k then Z e k else X e k) := by
  refine ⟨makeConsistent_blend hv hr hm cc _ (fun _ _ => v) X ?_, makeConsistent_blend hv hr hm cc _ X (fun _ _ => v) ?_,
    makeConsistent_blend hv hr hm cc _ X Z ?_, makeConsistent_blend hv hr hm cc _ Z X ?_⟩ <;>
  · intro p hp c hc hib k i hk
    obtain ⟨h1, h2⟩ := C16_set_and_copy (cc p) v (x p) (z p) i
    have hxi := hx p hp c hc hib k i hk
    have hzi := hz p hp c hc hib k i hk
    beta_reduce
    by_cases h : (cc p).Constrained i
    · rw [if_pos h]
      first
        | exact (h1 h).1
        | rw [(h1 h).2.1, hxi]
        | rw [(h1 h).2.2.1, hxi]
        | rw [(h1 h).2.2.2, hzi]
    · rw [if_neg h]
      first
        | rw [(h2 h).1, hxi]
        | exact (h2 h).2.1
        | rw [(h2 h).2.2.1, hzi]
        | rw [(h2 h).2.2.2, hxi]

open Classical in
/-- C199, sequential and nonoverlapping spaces, part: if all processes that have a DOF agree whether it is constrained, the four functions keep vectors
consistent (on whatever copies they were).  Missing: processes that do not agree. -/
theorem C199_other_categories_partial {cat : Category} (hcat : cat ≠ .overlapping) (hv : Valid L ents ndof ib) (msgs : List Message)
    (ranks : Nat → List Nat) (cc : Boilerplate.Constraints K) (hcc : Agree L cc) (v : K) {x z : Vecs K} {X Z : Nat → Nat → K}
    (hx : ConsistentOn L Copy.ib x X) (hz : ConsistentOn L Copy.ib z Z) :
    (∃ y, setConstrainedDOFS cat L msgs ranks cc x v = some y ∧
      ConsistentOn L Copy.ib y fun e k => if OwnerConstrained L cc e k then v else X e k) ∧
    (∃ y, setNonConstrainedDOFS cat L msgs ranks cc x v = some y ∧
      ConsistentOn L Copy.ib y fun e k => if OwnerConstrained L cc e k then X e k else v) ∧
    (∃ y, copyConstrainedDOFS cat L msgs ranks cc x z = some y ∧
      ConsistentOn L Copy.ib y fun e k => if OwnerConstrained L cc e k then X e k else Z e k) ∧
    (∃ y, copyNonConstrainedDOFS cat L msgs ranks cc x z = some y ∧
      ConsistentOn L Copy.ib y fun e k => if OwnerConstrained L cc e k then Z e k else X e k) := by
  have hmc : ∀ w : Vecs K, makeConsistent cat L msgs ranks w = some w := by
    intro w
    cases cat <;> first | rfl | exact absurd rfl hcat
  have hiff : ∀ p, p < L.procs → ∀ c ∈ L.copies p, ∀ k i : Nat, c.dofs[k]? = some i →
      (OwnerConstrained L cc c.ent k ↔ (cc p).Constrained i) := by
    intro p hp c hc k i hk
    constructor
    · rintro ⟨o, c', i', ho, hc', he, hk', h⟩
      exact (hcc p o hp ho.1 c hc c' hc' he.symm k i i' hk hk').2 h
    · intro h
      obtain ⟨o, ho⟩ := exists_lowest (hv.somewhere c.ent (hv.known p hp c hc))
      obtain ⟨c', hc', he, hib⟩ := ho.2.1
      have hlen : c'.dofs.length = ndof c'.ent := by
        rcases hv.dofs o ho.1 c' hc' with h | h
        · exact h
        · rw [h.1] at hib; cases hib
      have hk' : k < c'.dofs.length := by
        rw [hlen, he]
        exact (ndof_of_pos (f := all) (e := c.ent) (k := k) (i := i) hv hp (by rw [pos_eq hv hp hc rfl k, hk])).2
      have hget := List.getElem?_eq_getElem hk'
      exact ⟨o, c', _, ho, hc', he, hget, (hcc p o hp ho.1 c hc c' hc' he.symm k i _ hk hget).1 h⟩
  unfold setConstrainedDOFS setNonConstrainedDOFS copyConstrainedDOFS copyNonConstrainedDOFS
  simp only [hmc]
  refine ⟨⟨_, rfl, ?_⟩, ⟨_, rfl, ?_⟩, ⟨_, rfl, ?_⟩, ⟨_, rfl, ?_⟩⟩ <;>
  · intro p hp c hc hib k i hk
    obtain ⟨h1, h2⟩ := C16_set_and_copy (cc p) v (x p) (z p) i
    have hxi := hx p hp c hc hib k i hk
    have hzi := hz p hp c hc hib k i hk
    beta_reduce
    by_cases h : (cc p).Constrained i
    · rw [if_pos ((hiff p hp c hc k i hk).2 h)]
      first
        | exact (h1 h).1
        | rw [(h1 h).2.1, hxi]
        | rw [(h1 h).2.2.1, hxi]
        | rw [(h1 h).2.2.2, hzi]
    · rw [if_neg (fun h' => h ((hiff p hp c hc k i hk).1 h'))]
      first
        | rw [(h2 h).1, hxi]
        | exact (h2 h).2.1
        | rw [(h2 h).2.2.1, hzi]
        | rw [(h2 h).2.2.2, hxi]

end

/-- On one process there is nobody to disagree. -/
example {K : Type} (L : Layout) (cc : Boilerplate.Constraints K) (h1 : L.procs = 1) (ho : ((L.copies 0).map Copy.ent).Nodup) : Agree L cc := by
  intro p q hp hq c hc c' hc' he k i j hk hk'
  obtain rfl : p = 0 := by omega
  obtain rfl : q = 0 := by omega
  have := ent_unique ho hc hc' he
  subst this
  rw [hk] at hk'
  rw [Option.some.inj hk']

/-- Three triangles around the vertex 10 on the boundary of the domain, `(10,11,12)` and `(10,13,14)` on process 0 and `(10,12,13)` between them on
process 1.  The faces `(10,11)` and `(10,14)` are on the Dirichlet boundary; process 1 has no face there.  DOFs are at the vertices. -/
def bpLayout : Layout where
  procs := 2
  copies := fun p => match p with
    | 0 => [⟨10, true, [0]⟩, ⟨11, true, [1]⟩, ⟨12, true, [2]⟩, ⟨13, true, [3]⟩, ⟨14, true, [4]⟩]
    | 1 => [⟨10, true, [0]⟩, ⟨12, true, [1]⟩, ⟨13, true, [2]⟩]
    | _ => []
  size := fun p => match p with
    | 0 => 5
    | 1 => 3
    | _ => 0

/-- The Dirichlet constraints of the processes: those of the vertices of their own faces on the Dirichlet boundary. -/
def bpConstraints : Boilerplate.Constraints Int := fun p =>
  if p = 0 then ⟨[(0, []), (1, []), (4, [])], false⟩ else ⟨[], false⟩

theorem bpValid : Valid bpLayout [10, 11, 12, 13, 14] (fun _ => 1) true where
  ranks := by decide
  positions := by decide
  once := by decide
  distinct := by decide
  known := by decide
  somewhere := by
    intro e he
    simp only [List.mem_cons, List.not_mem_nil, or_false] at he
    rcases he with rfl | rfl | rfl | rfl | rfl
    · exact ⟨0, by decide, ⟨10, true, [0]⟩, by decide, rfl, rfl⟩
    · exact ⟨0, by decide, ⟨11, true, [1]⟩, by decide, rfl, rfl⟩
    · exact ⟨0, by decide, ⟨12, true, [2]⟩, by decide, rfl, rfl⟩
    · exact ⟨0, by decide, ⟨13, true, [3]⟩, by decide, rfl, rfl⟩
    · exact ⟨0, by decide, ⟨14, true, [4]⟩, by decide, rfl, rfl⟩
  dofs := by decide
  restricted := by
    have : ∀ p < 2, ∀ c ∈ bpLayout.copies p, c.ib = true := by decide
    intro _ p hp c hc h
    rw [this p hp c hc] at h
    cases h

/-- C199 is false of nonoverlapping spaces: setting the constrained DOFs of a consistent vector gives a vector that is not consistent, since a process can
have a vertex of the Dirichlet boundary without a face there. -/
theorem C199_nonoverlapping_false :
    ConsistentOn bpLayout Copy.ib (fun _ _ => (5 : Int)) (fun _ _ => 5) ∧
    ∃ y : Vecs Int, setConstrainedDOFS .nonoverlapping bpLayout [] (fun _ => []) bpConstraints (fun _ _ => 5) 0 = some y ∧
      ¬ ∃ Y, ConsistentOn bpLayout Copy.ib y Y := by
  refine ⟨fun _ _ _ _ _ _ _ _ => rfl, _, rfl, ?_⟩
  rintro ⟨Y, hY⟩
  have h0 := hY 0 (by decide) ⟨10, true, [0]⟩ (by decide) rfl 0 0 rfl
  have h1 := hY 1 (by decide) ⟨10, true, [0]⟩ (by decide) rfl 0 0 rfl
  rw [← h1] at h0
  exact absurd h0 (by decide)

/-- The ranks of the interface of the example. -/
def bpRankMsgs : List Msg :=
  [⟨1, 0, ⟨10, true, [0]⟩⟩, ⟨1, 0, ⟨13, true, [3]⟩⟩, ⟨0, 1, ⟨13, true, [2]⟩⟩, ⟨0, 1, ⟨10, true, [0]⟩⟩, ⟨0, 1, ⟨12, true, [1]⟩⟩, ⟨1, 0, ⟨12, true, [2]⟩⟩]

private theorem bpHasIB (p e : Nat) : HasIB bpLayout p e ↔ (bpLayout.copies p).any (fun c => c.ent == e && c.ib) = true := by
  simp [HasIB]

theorem bpInterface : Interface bpLayout true bpRankMsgs := by
  intro m
  constructor
  · intro h
    simp only [bpRankMsgs, List.mem_cons, List.not_mem_nil, or_false] at h
    rw [bpHasIB]
    rcases h with rfl | rfl | rfl | rfl | rfl | rfl <;> decide
  · rintro ⟨h1, h2, h3, h4, h5, -⟩
    rw [bpHasIB] at h5
    obtain ⟨src, dst, c⟩ := m
    have h1 : src < 2 := h1
    have h2 : dst < 2 := h2
    have h4 : c ∈ bpLayout.copies dst := h4
    have key : ∀ src < 2, ∀ dst < 2, ∀ c ∈ bpLayout.copies dst, src ≠ dst →
      (bpLayout.copies src).any (fun c' => c'.ent == c.ent && c'.ib) = true → (⟨src, dst, c⟩ : Msg) ∈ bpRankMsgs := by decide
    exact key src h1 dst h2 c h4 h3 h5

/-- With the same constraints, the overlapping version makes both processes use the value of process 0, which owns the vertex. -/
example : ∃ y : Vecs Int, setConstrainedDOFS .overlapping bpLayout (allMessages bpLayout Copy.ib all) (rankPartition bpLayout bpRankMsgs) bpConstraints
      (fun _ _ => 5) 0 = some y ∧ y 0 0 = 0 ∧ y 1 0 = 0 ∧ y 1 1 = 5 ∧ ∃ Y, ConsistentOn bpLayout all y Y := by
  obtain ⟨y, h1, h2⟩ := (C199_overlapping bpValid bpInterface (exchange_all bpLayout Copy.ib all (by decide)) bpConstraints 0
    (x := fun _ _ => (5 : Int)) (z := fun _ _ => 0) (X := fun _ _ => 5) (Z := fun _ _ => 0) (fun _ _ _ _ _ _ _ _ => rfl)
    (fun _ _ _ _ _ _ _ _ => rfl)).1
  refine ⟨y, h1, ?_, ?_, ?_, _, h2⟩
  all_goals
    have h : ∀ p < 2, ∀ i < 2, (setConstrainedDOFS .overlapping bpLayout (allMessages bpLayout Copy.ib all) (rankPartition bpLayout bpRankMsgs) bpConstraints
      (fun _ _ => (5 : Int)) 0).map (fun y => y p i) = some (if i = 0 ∨ p = 0 then 0 else 5) := by decide +kernel
  · have := h 0 (by decide) 0 (by decide); rw [h1] at this; simpa using this
  · have := h 1 (by decide) 0 (by decide); rw [h1] at this; simpa using this
  · have := h 1 (by decide) 1 (by decide); rw [h1] at this; simpa using this

/-! ### C200 -/

section
variable {K : Type} [Field K] [LinearOrder K] [IsStrictOrderedRing K]

set_option linter.unusedSectionVars false

private theorem checkOrigin_iff (eps : K) : ∀ (ps : List (K × K)), checkOrigin eps ps = true ↔ ∀ q ∈ ps, |q.1| ≤ |q.2| * eps
  | [] => by simp [checkOrigin]
  | (l, u) :: r => by
    unfold checkOrigin
    by_cases h : |l| > |u| * eps
    · rw [if_pos h]
      simp only [List.mem_cons, forall_eq_or_imp, Bool.false_eq_true, false_iff, not_and]
      intro h'
      exact absurd h' (not_le.2 h)
    · rw [if_neg h, checkOrigin_iff eps r]
      simp only [List.mem_cons, forall_eq_or_imp]
      exact ⟨fun h' => ⟨not_lt.1 h, h'⟩, fun h' => h'.2⟩

/-- C200. A Yasp grid is created exactly if the lower left corner is the origin up to the tolerance, relative to the upper right corner in each
direction; whatever the type of the elements, it is the grid with the given upper right corner, cells, periodic directions and overlap, and no
periodic directions if none are given. -/
theorem C200_yasp (eps : K) (type : MeshType) (lower upper : List K) (cells : List Nat) (periodic : List Bool) (overlap : Nat) (g : YaspArgs K) :
    (yaspPeriodic eps type lower upper cells periodic overlap = some g ↔
      (∀ q ∈ lower.zip upper, |q.1| ≤ |q.2| * eps) ∧ g.upper = upper ∧ g.cells = cells ∧ g.periodic = periodic ∧ g.overlap = overlap) ∧
    (yaspSized eps type lower upper cells overlap = some g ↔
      (∀ q ∈ lower.zip upper, |q.1| ≤ |q.2| * eps) ∧ g.upper = upper ∧ g.cells = cells ∧ g.periodic = upper.map (fun _ => false) ∧
        g.overlap = overlap) := by
  obtain ⟨gu, gc, gp, go⟩ := g
  unfold yaspPeriodic yaspSized
  have hmap : upper.map (fun _ => false) = List.replicate upper.length false := by
    induction upper with
    | nil => rfl
    | cons a l ih => simp [List.replicate_succ]
  by_cases h : checkOrigin eps (lower.zip upper) = true
  · rw [if_pos h, if_pos h]
    have h' := (checkOrigin_iff eps _).1 h
    rw [hmap]
    simp only [Option.some.injEq, YaspArgs.mk.injEq]
    exact ⟨⟨fun e => ⟨h', e.1.symm, e.2.1.symm, e.2.2.1.symm, e.2.2.2.symm⟩, fun e => ⟨e.2.1.symm, e.2.2.1.symm, e.2.2.2.1.symm, e.2.2.2.2.symm⟩⟩,
      ⟨fun e => ⟨h', e.1.symm, e.2.1.symm, e.2.2.1.symm, e.2.2.2.symm⟩, fun e => ⟨e.2.1.symm, e.2.2.1.symm, e.2.2.2.1.symm, e.2.2.2.2.symm⟩⟩⟩
  · rw [if_neg h, if_neg h]
    constructor <;>
    · constructor
      · intro e; cases e
      · intro e; exact absurd ((checkOrigin_iff eps _).2 e.1) h

/-- C200. Other grids: created for cubes and simplices with the corners and cells given, refused otherwise; without corners it is the unit cube with the
same number of cells in each direction. The unit cube of a Yasp grid is the same domain. -/
theorem C200_structured (dim : Nat) (type : MeshType) (lower upper : List K) (cells : List Nat) (n overlap : Nat) :
    (structuredGrid type lower upper cells = if type = .other then none else some ⟨type, lower, upper, cells⟩) ∧
    (∀ g : FactoryArgs K, structuredUnitCube dim type n = some g → g.type = type ∧ ∀ d : Nat,
      g.lower[d]? = (if d < dim then some 0 else none) ∧ g.upper[d]? = (if d < dim then some 1 else none) ∧
      g.cells[d]? = if d < dim then some n else none) ∧
    (∀ d : Nat, (yaspUnitCube dim type n overlap : YaspArgs K).upper[d]? = (if d < dim then some 1 else none) ∧
      (yaspUnitCube dim type n overlap : YaspArgs K).cells[d]? = (if d < dim then some n else none) ∧
      (yaspUnitCube dim type n overlap : YaspArgs K).periodic[d]? = (if d < dim then some false else none) ∧
      (yaspUnitCube dim type n overlap : YaspArgs K).overlap = overlap) := by
  refine ⟨by cases type <;> rfl, ?_, ?_⟩
  · intro g hg
    unfold structuredUnitCube structuredGrid at hg
    cases type <;> simp only [Option.some.injEq, reduceCtorEq] at hg
    all_goals
      subst hg
      exact ⟨rfl, fun d => by simp [List.getElem?_replicate]⟩
  · intro d
    simp [yaspUnitCube, List.getElem?_replicate]

/-- C200. The lower left corner of the Yasp grid, the origin, differs from the one asked for by at most the tolerance times the upper right corner. -/
theorem C200_corner (eps : K) (type : MeshType) (lower upper : List K) (cells : List Nat) (periodic : List Bool) (overlap : Nat) (g : YaspArgs K)
    (h : yaspPeriodic eps type lower upper cells periodic overlap = some g) (d : Nat) (l u : K) (hl : lower[d]? = some l) (hu : g.upper[d]? = some u) :
    upper[d]? = some u ∧ |0 - l| ≤ eps * |u| := by
  obtain ⟨h1, h2, -⟩ := (C200_yasp eps type lower upper cells periodic overlap g).1.1 h
  rw [h2] at hu
  refine ⟨hu, ?_⟩
  have : (lower.zip upper)[d]? = some (l, u) := by
    rw [List.getElem?_zip_eq_some]
    exact ⟨hl, hu⟩
  have := h1 _ (List.mem_of_getElem? this)
  rw [zero_sub, abs_neg, mul_comm]
  exact this

end

example : (yaspPeriodic (1/10) .simplex [1, 0] [20, 1] [4, 5] [true, false] 2 : Option (YaspArgs Rat)).isSome = true ∧
    (yaspPeriodic (1/10) .simplex [3, 0] [20, 1] [4, 5] [true, false] 2 : Option (YaspArgs Rat)).isSome = false := by decide +kernel

end Verif
