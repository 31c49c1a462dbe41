import Verif.Proofs.Constraints
/-
C15, C16, C17, C57, C58: constraints containers.
-/
namespace Verif
open Constraints

section
variable {D I F : Type} [DecidableEq I]

/-- **C15.** After assembling any sequence of contributions (in any order) into a container, whatever it held before
(`constraints(p,gfs,cg)` clears it):
* a DOF is Dirichlet-constrained iff some contribution for it was a Dirichlet contribution,
* it is constrained iff there was some contribution for it, and there is one row per DOF,
* the flag is set whenever a non-Dirichlet row is stored, and only if there was a non-Dirichlet contribution,
* the coefficients of a stored row are exactly those of DOFs for which coefficients were contributed, each with one
  of the contributed values. -/
theorem C15_contributions (cs : List (Contribution D I F)) (cg0 : Trafo I F) :
    let cg := assemble cs cg0
    (∀ k, cg.Dirichlet k ↔ SomeDirichlet cs k) ∧
    (∀ k, cg.Constrained k ↔ SomeContribution cs k) ∧
    (∀ k r r', (k, r) ∈ cg.rows → (k, r') ∈ cg.rows → r = r') ∧
    ((∃ k r, (k, r) ∈ cg.rows ∧ r ≠ []) → cg.nonDirichlet = true) ∧
    (cg.nonDirichlet = true → ∃ k j w, SomeCoefficient cs k j w) ∧
    (∀ k r j w, (k, r) ∈ cg.rows → (j, w) ∈ r → SomeCoefficient cs k j w) ∧
    (∀ k r j w, (k, r) ∈ cg.rows → r ≠ [] → SomeCoefficient cs k j w → ∃ w', (j, w') ∈ r) := by
  have hinv : Inv (events cs) (assemble cs cg0) := by
    have h : assemble cs cg0 = assembleNoParameters cs Trafo.empty := rfl
    rw [h, assemble_eq_run]; exact inv_run _
  intro cg
  have hf : ∀ k r, (k, r) ∈ cg.rows ↔ find? k cg.rows = some r := fun k r => (find?_iff_mem k r _ hinv.nodup).symm
  have hcoef : ∀ k j w, (∃ r, (k, r) ∈ events cs ∧ (j, w) ∈ r) ↔ SomeCoefficient cs k j w := by
    intro k j w
    constructor
    · rintro ⟨r, hm, hj⟩
      obtain ⟨c, hc, d, row, hr, hk, rfl⟩ := (mem_events cs k r).mp hm
      simp only [List.mem_map, Prod.mk.injEq, Prod.exists] at hj
      obtain ⟨e, w', he, h1, h2⟩ := hj
      subst h2
      exact ⟨c, hc, d, row, hr, hk, e, he, h1⟩
    · rintro ⟨c, hc, d, row, hr, hk, e, he, h1⟩
      exact ⟨_, (mem_events cs k _).mpr ⟨c, hc, d, row, hr, hk, rfl⟩, List.mem_map.mpr ⟨(e, w), he, by simp [h1]⟩⟩
  refine ⟨?_, ?_, ?_, ?_, ?_, ?_, ?_⟩
  · intro k
    show (k, []) ∈ cg.rows ↔ _
    rw [hf, hinv.dirichlet, mem_events]
    constructor
    · rintro ⟨c, hc, d, row, hr, hk, e⟩
      have : row = [] := List.map_eq_nil_iff.mp e.symm
      subst this
      exact ⟨c, hc, d, hr, hk⟩
    · rintro ⟨c, hc, d, hr, hk⟩; exact ⟨c, hc, d, [], hr, hk, rfl⟩
  · intro k
    have : cg.Constrained k ↔ ∃ r, find? k cg.rows = some r :=
      ⟨fun ⟨r, h⟩ => ⟨r, (hf k r).mp h⟩, fun ⟨r, h⟩ => ⟨r, (hf k r).mpr h⟩⟩
    rw [this, hinv.present]
    constructor
    · rintro ⟨r, hm⟩
      obtain ⟨c, hc, d, row, hr, hk, -⟩ := (mem_events cs k r).mp hm
      exact ⟨c, hc, d, row, hr, hk⟩
    · rintro ⟨c, hc, d, row, hr, hk⟩
      exact ⟨_, (mem_events cs k _).mpr ⟨c, hc, d, row, hr, hk, rfl⟩⟩
  · intro k r r' h h'
    have := ((hf k r).mp h).symm.trans ((hf k r').mp h')
    exact Option.some.inj this
  · rintro ⟨k, r, hm, hne⟩; exact hinv.flag k r ((hf k r).mp hm) hne
  · intro h
    obtain ⟨k, r, hm, hne⟩ := hinv.flagOnly h
    cases r with
    | nil => exact absurd rfl hne
    | cons a r => exact ⟨k, a.1, a.2, (hcoef _ _ _).mp ⟨_, hm, by simp⟩⟩
  · intro k r j w hm hj
    have hr := (hf k r).mp hm
    rw [← hcoef]
    exact hinv.source k r j w hr ((find?_iff_mem j w r (hinv.rowNodup k r hr)).mpr hj)
  · intro k r j w hm hne hj
    obtain ⟨r', h1, h2⟩ := (hcoef _ _ _).mpr hj
    obtain ⟨w', hw'⟩ := hinv.complete k r r' j w ((hf k r).mp hm) hne h1 h2
    exact ⟨w', find?_some_mem _ _ _ hw'⟩

/-- **C15 (order).** The sets of constrained and of Dirichlet-constrained DOFs do not depend on the order in which
the cells are visited, nor on the iteration order of the local containers. -/
theorem C15_order_independent (cs cs' : List (Contribution D I F)) (cg cg' : Trafo I F)
    (h : ∀ (k : I) (r : List (I × F)), (∃ c ∈ cs, ∃ d row, (d, row) ∈ c.rows ∧ c.index d = k ∧
            r = row.map fun e => (c.index e.1, e.2)) ↔
          (∃ c ∈ cs', ∃ d row, (d, row) ∈ c.rows ∧ c.index d = k ∧ r = row.map fun e => (c.index e.1, e.2))) :
    (∀ k, (assemble cs cg).Dirichlet k ↔ (assemble cs' cg').Dirichlet k) ∧
    (∀ k, (assemble cs cg).Constrained k ↔ (assemble cs' cg').Constrained k) := by
  obtain ⟨h1, h2, -⟩ := C15_contributions cs cg
  obtain ⟨h1', h2', -⟩ := C15_contributions cs' cg'
  constructor
  · intro k
    rw [h1, h1']
    constructor
    · rintro ⟨c, hc, d, hd, hk⟩
      obtain ⟨c', hc', d', row, hd', hk', e⟩ := (h k []).mp ⟨c, hc, d, [], hd, hk, rfl⟩
      have : row = [] := List.map_eq_nil_iff.mp e.symm
      subst this
      exact ⟨c', hc', d', hd', hk'⟩
    · rintro ⟨c, hc, d, hd, hk⟩
      obtain ⟨c', hc', d', row, hd', hk', e⟩ := (h k []).mpr ⟨c, hc, d, [], hd, hk, rfl⟩
      have : row = [] := List.map_eq_nil_iff.mp e.symm
      subst this
      exact ⟨c', hc', d', hd', hk'⟩
  · intro k
    rw [h2, h2']
    constructor
    · rintro ⟨c, hc, d, row, hd, hk⟩
      obtain ⟨c', hc', d', row', hd', hk', -⟩ := (h k _).mp ⟨c, hc, d, row, hd, hk, rfl⟩
      exact ⟨c', hc', d', row', hd', hk'⟩
    · rintro ⟨c, hc, d, row, hd, hk⟩
      obtain ⟨c', hc', d', row', hd', hk', -⟩ := (h k _).mpr ⟨c, hc, d, row, hd, hk, rfl⟩
      exact ⟨c', hc', d', row', hd', hk'⟩

/-- Visiting the cells in any other order is such a case. -/
theorem C15_cell_order (cs cs' : List (Contribution D I F)) (cg cg' : Trafo I F) (h : cs.Perm cs') :
    (∀ k, (assemble cs cg).Dirichlet k ↔ (assemble cs' cg').Dirichlet k) ∧
    (∀ k, (assemble cs cg).Constrained k ↔ (assemble cs' cg').Constrained k) := by
  apply C15_order_independent
  intro k r
  simp only [h.mem_iff]

/-- A DOF (7) that is linearly constrained by one cell and Dirichlet-constrained by the other, visited in both orders,
and a DOF (9) that is linearly constrained by two cells. -/
private def exA : Contribution Nat Nat Int := ⟨fun d => d, [(7, [(1, 2)]), (9, [(1, 1)])]⟩
private def exB : Contribution Nat Nat Int := ⟨fun d => d + 2, [(5, []), (7, [(0, 3)])]⟩

example : (assemble [exA, exB] Trafo.empty).rows = [(7, []), (9, [(1, 1), (2, 3)])] ∧
    (assemble [exB, exA] Trafo.empty).rows = [(7, []), (9, [(2, 3), (1, 1)])] ∧
    [exA, exB].Perm [exB, exA] := ⟨by decide +kernel, by decide +kernel, List.Perm.swap _ _ _⟩

/-- **C16.** The vector operations touch exactly the DOFs they should. -/
theorem C16_set_and_copy (cg : Trafo I F) (v : F) (x y : I → F) (i : I) :
    (cg.Constrained i → setConstrained cg v x i = v ∧ setNonconstrained cg v x i = x i ∧
      copyConstrained cg x y i = x i ∧ copyNonconstrained cg x y i = y i) ∧
    (¬ cg.Constrained i → setConstrained cg v x i = x i ∧ setNonconstrained cg v x i = v ∧
      copyConstrained cg x y i = y i ∧ copyNonconstrained cg x y i = x i) := by
  constructor
  · intro h
    exact ⟨(setConstrained_apply _ _ _ _).1 h, (copyConstrained_apply _ _ _ _).1 h,
      (copyConstrained_apply _ _ _ _).1 h, (copyConstrained_apply _ _ _ _).1 h⟩
  · intro h
    exact ⟨(setConstrained_apply _ _ _ _).2 h, (copyConstrained_apply _ _ _ _).2 h,
      (copyConstrained_apply _ _ _ _).2 h, (copyConstrained_apply _ _ _ _).2 h⟩

/-- **C16 (complementary).** Copying the constrained and then the non-constrained DOFs copies the whole vector. -/
theorem C16_copy_both (cg : Trafo I F) (x y : I → F) :
    copyNonconstrained cg x (copyConstrained cg x y) = x := by
  funext i
  by_cases h : cg.Constrained i
  · rw [((C16_set_and_copy cg (x i) x _ i).1 h).2.2.2, ((C16_set_and_copy cg (x i) x y i).1 h).2.2.1]
  · rw [((C16_set_and_copy cg (x i) x _ i).2 h).2.2.2]

/-- **C16 (check).** `check_constrained_dofs` accepts exactly the vectors whose constrained entries compare equal to the
value; in particular (for a comparison that never rejects equal values) those produced by `set_constrained_dofs`. -/
theorem C16_check (ne : F → F → Bool) (cg : Trafo I F) (v : F) (x : I → F) :
    (checkConstrained ne cg v x = true ↔ ∀ i, cg.Constrained i → ne (x i) v = false) ∧
    (ne v v = false → checkConstrained ne cg v (setConstrained cg v x) = true) := by
  have key : ∀ x, checkConstrained ne cg v x = true ↔ ∀ i, cg.Constrained i → ne (x i) v = false := by
    intro x
    simp only [checkConstrained]
    cases hf : cg.rows.find? fun col => ne (x col.1) v with
    | some c =>
      simp only [Bool.false_eq_true, false_iff]
      intro h
      have h1 := List.mem_of_find?_eq_some hf
      have h2 := List.find?_some hf
      rw [h c.1 ⟨c.2, h1⟩] at h2
      exact Bool.noConfusion h2
    | none =>
      simp only [true_iff]
      rintro i ⟨row, hr⟩
      have := List.find?_eq_none.mp hf _ hr
      simpa using this
  refine ⟨key x, fun h => (key _).mpr fun i hi => ?_⟩
  rw [(setConstrained_apply _ _ _ _).1 hi]; exact h

/-- The overloads for unconstrained spaces agree with the general functions on an empty container. -/
theorem C16_unconstrained (v : F) (x y : I → F) :
    setConstrainedUnconstrained v x = setConstrained Trafo.empty v x ∧
    copyConstrainedUnconstrained x y = copyConstrained Trafo.empty x y ∧
    setNonconstrainedUnconstrained v x = setNonconstrained Trafo.empty v x ∧
    copyNonconstrainedUnconstrained x y = copyNonconstrained Trafo.empty x y := ⟨rfl, rfl, rfl, rfl⟩

example : (Trafo.mk [(3, []), (5, [(4, (2 : Int))])] true).Constrained 5 ∧
    ¬ (Trafo.mk [(3, []), (5, [(4, (2 : Int))])] true).Constrained 4 ∧
    setConstrained (Trafo.mk [(3, []), (5, [(4, (2 : Int))])] true) 9 (fun i : Nat => (i : Int)) 5 = 9 := by
  refine ⟨⟨[(4, 2)], by decide⟩, ?_, by decide⟩
  rintro ⟨r, hr⟩
  simp at hr

/-- **C57 is false of the code**: `set_shifted_dofs` should set all DOFs that are not Dirichlet-constrained. For an
unconstrained space the special overload leaves the vector unchanged, while the general function on an empty container sets
every entry. -/
theorem C57_set_shifted_unconstrained_false :
    ¬ ∀ (v : Int) (x : Nat → Int), setShiftedUnconstrained v x = setShifted Trafo.empty v x := by
  intro h
  have := congrFun (h 1 (fun _ => 0)) 0
  simp [setShiftedUnconstrained, setShifted, Trafo.empty] at this

/-- **C57, what holds**: the general function sets exactly the DOFs that are not Dirichlet-constrained. -/
theorem C57_set_shifted_partial (cg : Trafo I F) (v : F) (x : I → F) (i : I) :
    (cg.Dirichlet i → setShifted cg v x i = x i) ∧ (¬ cg.Dirichlet i → setShifted cg v x i = v) :=
  setShifted_apply cg v x i

/-- **C58 is false of the code** for `constraints(gfs,cg)`: constraints of an earlier assembly survive, while
`constraints(p,gfs,cg)` starts from scratch. -/
theorem C58_reassembly_false :
    ¬ ∀ (cs : List (Contribution Nat Nat Int)) (cg : Trafo Nat Int) (k : Nat),
      (assembleNoParameters cs cg).Constrained k → SomeContribution cs k := by
  intro h
  obtain ⟨c, hc, -⟩ := h [] ⟨[(3, [])], false⟩ 3 ⟨[], by decide⟩
  exact absurd hc (by simp)

/-- **C58, what holds**: with parameters the result does not depend on the previous contents; without parameters this is
so for a cleared container. -/
theorem C58_reassembly_partial (cs : List (Contribution D I F)) (cg cg' : Trafo I F) :
    assemble cs cg = assemble cs cg' ∧ assembleNoParameters cs cg.clear = assemble cs cg' := ⟨rfl, rfl⟩

end

section
variable {I F : Type} [DecidableEq I] [CommRing F]

/-- **C17.** After `constrain_residual` every constrained entry is zero. If no constraint has coefficients for constrained
DOFs, every other entry is its old value plus the old residuals of the DOFs it constrains times their coefficients. -/
theorem C17_constrain_residual (cg : Trafo I F) (x : I → F) (i : I) :
    (cg.Constrained i → constrainResidual cg x i = 0) ∧
    (cg.NoChains → ¬ cg.Constrained i →
      constrainResidual cg x i = x i + (cg.rows.map fun col => coef col.2 i * x col.1).sum) := by
  have hz := fun y => setConstrained_apply cg (0 : F) y i
  constructor
  · intro h; exact (hz _).1 h
  · intro hn h
    have : constrainResidual cg x i = (cg.rows.foldl distributeCol x) i := (hz _).2 h
    rw [this]
    exact distribute_apply (fun j => cg.Constrained j) cg.rows (fun c hc => ⟨c.2, hc⟩)
      (fun c hc e he => hn c.1 c.2 e.1 e.2 hc he) x i

/-- **C17 (order).** Without such chains the result does not depend on the iteration order of the container and of its
rows. -/
theorem C17_order_independent (cg cg' : Trafo I F) (x : I → F) (hn : cg.NoChains)
    (h : ∃ rows, cg.rows.Perm rows ∧
      List.Forall₂ (fun a b : I × List (I × F) => a.1 = b.1 ∧ a.2.Perm b.2) rows cg'.rows) :
    constrainResidual cg x = constrainResidual cg' x := by
  obtain ⟨rows, hp, hf⟩ := h
  obtain ⟨rows', flag'⟩ := cg'
  simp only at hf
  have hmem1 : ∀ a ∈ cg.rows, ∃ b ∈ rows', a.1 = b.1 ∧ a.2.Perm b.2 := by
    intro a ha
    have ha' := hp.mem_iff.mp ha
    clear hp hn ha
    induction hf with
    | nil => simp at ha'
    | cons hab _ ih =>
      rcases List.mem_cons.mp ha' with e | e
      · subst e; exact ⟨_, by simp, hab⟩
      · obtain ⟨b, hb, h⟩ := ih e; exact ⟨b, List.mem_cons_of_mem _ hb, h⟩
  have hmem2 : ∀ b ∈ rows', ∃ a ∈ cg.rows, a.1 = b.1 ∧ a.2.Perm b.2 := by
    intro b hb
    have : ∃ a ∈ rows, a.1 = b.1 ∧ a.2.Perm b.2 := by
      clear hp hn hmem1
      induction hf with
      | nil => simp at hb
      | cons hab _ ih =>
        rcases List.mem_cons.mp hb with e | e
        · subst e; exact ⟨_, by simp, hab⟩
        · obtain ⟨a, ha, h⟩ := ih e; exact ⟨a, List.mem_cons_of_mem _ ha, h⟩
    obtain ⟨a, ha, h⟩ := this
    exact ⟨a, hp.mem_iff.mpr ha, h⟩
  have hc : ∀ i, cg.Constrained i ↔ (Trafo.mk rows' flag').Constrained i := by
    intro i
    constructor
    · rintro ⟨r, hr⟩; obtain ⟨b, hb, e, -⟩ := hmem1 _ hr; exact ⟨b.2, by rw [show i = b.1 from e]; exact hb⟩
    · rintro ⟨r, hr⟩; obtain ⟨a, ha, e, -⟩ := hmem2 _ hr; exact ⟨a.2, by rw [show i = a.1 from e.symm]; exact ha⟩
  have hn' : (Trafo.mk rows' flag').NoChains := by
    intro k row j w hk hj hcj
    obtain ⟨a, ha, -, hperm⟩ := hmem2 _ hk
    exact hn a.1 a.2 j w ha (hperm.mem_iff.mpr hj) ((hc j).mpr hcj)
  funext i
  by_cases hi : cg.Constrained i
  · rw [(C17_constrain_residual cg x i).1 hi, (C17_constrain_residual (Trafo.mk rows' flag') x i).1 ((hc i).mp hi)]
  · rw [(C17_constrain_residual cg x i).2 hn hi,
      (C17_constrain_residual (Trafo.mk rows' flag') x i).2 hn' (fun h => hi ((hc i).mpr h))]
    congr 1
    rw [(hp.map fun col => coef col.2 i * x col.1).sum_eq]
    rw [map_coef_perm rows rows' hf x i]

end

/-- Without the hypothesis on chains the result of `constrain_residual` does depend on the iteration order. -/
theorem C17_order_matters_with_chains :
    ∃ (rows rows' : List (Nat × List (Nat × Int))) (x : Nat → Int), rows.Perm rows' ∧
      constrainResidual ⟨rows, true⟩ x ≠ constrainResidual ⟨rows', true⟩ x := by
  refine ⟨[(0, [(1, 1)]), (1, [(2, 1)])], [(1, [(2, 1)]), (0, [(1, 1)])], fun i => if i = 0 then 1 else 0,
    List.Perm.swap _ _ _, fun h => ?_⟩
  exact absurd (congrFun h 2) (by decide)

/-- A container meeting the hypotheses: DOF 7 depends on 1 and 2, DOF 3 is a Dirichlet DOF, DOF 8 depends on 1. -/
example : (Trafo.mk [(7, [(1, (2 : Int)), (2, 3)]), (3, []), (8, [(1, 5)])] true).NoChains ∧
    constrainResidual (Trafo.mk [(7, [(1, (2 : Int)), (2, 3)]), (3, []), (8, [(1, 5)])] true) (fun i : Nat => (i : Int)) 1
      = 1 + 2 * 7 + 5 * 8 := by
  refine ⟨?_, by decide⟩
  rintro k row j w h1 h2 ⟨r, h3⟩
  simp at h1 h2 h3
  rcases h1 with ⟨rfl, rfl⟩ | ⟨rfl, rfl⟩ | ⟨rfl, rfl⟩ <;> simp at h2
  · rcases h2 with ⟨rfl, rfl⟩ | ⟨rfl, rfl⟩ <;> simp at h3
  · obtain ⟨rfl, rfl⟩ := h2; simp at h3

end Verif
