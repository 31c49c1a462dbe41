import Verif.Spec.ExplicitSolve
import Verif.Proofs.TransientSolve
import Verif.Proofs.CCFVSolve
import Verif.Proofs.TimeStepSize
import Verif.Props.OneStepMethod
import Verif.Props.Stability
/-
Helper lemmas for C244.
-/
set_option linter.unusedSectionVars false
namespace Verif.ExplicitSolve
open LocalOp LocalOp.Spec ConstrainedSolve Constraints TransientSolve
open OneStep (Kind Op Setting St Scheme NoTinyCoefficients schemeResidual factors)

section generic
variable {I K : Type} [DecidableEq I] [Fintype I] [Field K] [LinearOrder K] [IsStrictOrderedRing K]

/-- A temporal operator: volume terms only, linear. -/
structure Mass (L1 : LocalParts I K) : Prop where
  volume : ∀ k e τ, k ≠ .uvVolume → L1 k e τ = none
  affine : ∀ k e τ p, L1 k e τ = some p → Affine p (p.jacobian fun _ => 0) (p.residual fun _ => 0)
  linear : ∀ k e τ p, L1 k e τ = some p → ∀ i < p.nv, p.residual (fun _ => 0) i = 0

def act : (I → I → K) →+ ((I → K) → I → K) where
  toFun A := matVec A
  map_zero' := by funext x i; simp [matVec]
  map_add' A B := by funext x i; simp [matVec, add_mul, Finset.sum_add_distrib]

theorem sum_list_comm {α : Type} (l : List α) (f : I → α → K) : ∑ i, (l.map (f i)).sum = (l.map fun a => ∑ i, f i a).sum := by
  induction l with
  | nil => simp
  | cons a l ih => simp only [List.map_cons, List.sum_cons, Finset.sum_add_distrib, ih]

theorem hlin (L1 : LocalParts I K) (h : Mass L1) (k : Kind) (e : Nat) (τ : K) (y z : I → K) :
    act (matrixContribution L1 k e τ y) z = contribution L1 k e τ z := by
  have ha := h.affine k e τ
  have hl := h.linear k e τ
  unfold matrixContribution contribution
  cases hL : L1 k e τ with
  | none => funext i; simp [act, matVec]
  | some p =>
    funext a
    have e1 := assembled_form [p] z (fun _ => 0) a
    simp only [List.foldl_cons, List.foldl_nil, zero_add] at e1
    simp only
    rw [e1]
    unfold form
    simp only [List.map_cons, List.map_nil, List.sum_cons, List.sum_nil, add_zero]
    change ∑ b, _ * z b = _
    simp only [← List.sum_map_mul_right]
    rw [sum_list_comm]
    congr 1
    refine List.map_congr_left fun i hi => ?_
    rw [sum_list_comm, (ha p hL _).2 i (List.mem_range.mp hi), hl p hL i (List.mem_range.mp hi), zero_add, ← List.sum_map_mul_left]
    congr 1
    refine List.map_congr_left fun j hj => ?_
    rw [(ha p hL _).1]
    by_cases hv : p.v i = a
    · simp [hv, Finset.sum_ite_eq]
    · simp [hv]

theorem form_act (L1 : LocalParts I K) (h : Mass L1) (trace : List (Kind × Nat)) (τ : K) (y z : I → K) :
    act (OneStep.form (matrixContribution L1) trace τ y) z = OneStep.form (contribution L1) trace τ z := by
  induction trace with
  | nil => simp [OneStep.form]
  | cons c trace ih => rw [OneStep.form_cons, OneStep.form_cons, map_add, Pi.add_apply, ih, hlin L1 h]

theorem regular_solves (L1 : LocalParts I K) (h : Mass L1) (trace : List (Kind × Nat))
    (hreg : ∀ τ x, (∀ k, OneStep.form (contribution L1) trace τ x k = 0) → x = fun _ => 0) (ls : (I → I → K) → (I → K) → (I → K) → I → K) (hls : SolvesRegular ls)
    (τ : K) (y b g : I → K) :
    act (-OneStep.form (matrixContribution L1) trace τ y) (ls (-OneStep.form (matrixContribution L1) trace τ y) b g) = b := by
  refine hls _ b g fun z hz => hreg τ z fun k => ?_
  have e : act (-OneStep.form (matrixContribution L1) trace τ y) z k = 0 := congrFun hz k
  rw [map_neg, Pi.neg_apply, form_act L1 h] at e
  exact neg_eq_zero.mp e

theorem contribution_pair (L : LocalParts I K) (trace : List (Kind × Nat)) (τ : K) (x : I → K) (k : I) :
    OneStep.form (contribution L) trace τ x k = form (partsAt L trace τ) x fun k' => if k' = k then 1 else 0 := by
  rw [← sum_contribution]
  simp

theorem step (L0 L1 : LocalParts I K) (h : Mass L1) (trace : List (Kind × Nat))
    (hreg : ∀ τ x, (∀ k, OneStep.form (contribution L1) trace τ x k = 0) → x = fun _ => 0)
    (S : Scheme K) (hS : ExplicitScheme S) (time dt suggested : K)
    (hdt : min suggested dt = dt ∨ (∀ k e τ τ', L0 k e τ = L0 k e τ') ∧ ∀ k e τ τ', L1 k e τ = L1 k e τ')
    (ls : (I → I → K) → (I → K) → (I → K) → I → K) (hls : SolvesRegular ls) (st : St K (I → K) (I → K)) (x : Nat → I → K) :
    let out := explicitStep L0 L1 trace S time dt suggested ls st x
    out.2 = min suggested dt ∧ out.1 0 = x 0 ∧
    (∀ r, 1 ≤ r → r ≤ S.s → ∀ w, stageForm ⟨S, time, out.2, .multiplyOperator0ByDT, r⟩ L0 L1 trace out.1 w = 0) ∧
    ∀ y, y 0 = x 0 → (∀ r, 1 ≤ r → r ≤ S.s → ∀ w, stageForm ⟨S, time, out.2, .multiplyOperator0ByDT, r⟩ L0 L1 trace y w = 0) →
      ∀ r, r ≤ S.s → y r = out.1 r := by
  intro out
  have hnd : out.2 = min suggested dt := rfl
  have haut : ∀ L : LocalParts I K, (∀ k e τ τ', L k e τ = L k e τ') → Autonomous (contribution L) := by
    intro L hL k e τ τ' x
    unfold contribution
    rw [hL k e τ τ']
  have hres := C70_explicit_step_partial S time dt suggested (contribution L0) (contribution L1) (matrixContribution L1) act ls trace st x
    (fun t y b g => regular_solves L1 h trace hreg ls hls t y b g) (fun k e t y z => hlin L1 h k e t y z)
    (fun k e t y h1 _ => by
      unfold matrixContribution
      rw [h.volume k e t h1]
      rfl)
    (by
      rcases hdt with hdt | ⟨h0, h1⟩
      · exact Or.inl hdt
      · exact Or.inr ⟨haut L0 h0, haut L1 h1⟩)
    (fun r h1 h2 => (hS r h1 h2).1) (fun r h1 h2 => (hS r h1 h2).2.1) (fun r h1 h2 => (hS r h1 h2).2.2)
  have hx0 : out.1 0 = x 0 :=
    (explicit_fold ⟨S, time, dt, .doNotAssembleDT, 0⟩ (contribution L0) (contribution L1) (matrixContribution L1) ls trace
      (OneStep.chooseDt suggested dt) st S.s 1 x (by simp only; omega)).1 0 (by omega)
  have hform : ∀ (P : Setting K) (x : Nat → I → K) (w : I → K), stageForm P L0 L1 trace x w =
      ∑ k, w k * schemeResidual P (contribution L0) (contribution L1) trace x k := by
    intro P x w
    unfold stageForm schemeResidual
    simp only [Finset.sum_apply, Finset.mul_sum]
    rw [Finset.sum_comm]
    refine Finset.sum_congr rfl fun s _ => ?_
    rw [← sum_contribution, ← sum_contribution, Finset.mul_sum, Finset.mul_sum, ← Finset.sum_add_distrib]
    refine Finset.sum_congr rfl fun k _ => ?_
    simp only [Pi.add_apply, Pi.smul_apply, smul_eq_mul]
    ring
  have hout : ∀ r, 1 ≤ r → r ≤ S.s → ∀ w, stageForm ⟨S, time, out.2, .multiplyOperator0ByDT, r⟩ L0 L1 trace out.1 w = 0 := by
    intro r h1 h2 w
    rw [hform]
    refine Finset.sum_eq_zero fun k _ => ?_
    have : schemeResidual ⟨S, time, out.2, .multiplyOperator0ByDT, r⟩ (contribution L0) (contribution L1) trace out.1 = 0 := hres r h1 h2
    rw [this]
    exact mul_zero _
  refine ⟨hnd, hx0, hout, fun y hy0 hy => ?_⟩
  intro r
  induction r using Nat.strong_induction_on with
  | _ r ih =>
    intro hr
    rcases Nat.eq_zero_or_pos r with rfl | hpos
    · rw [hy0, hx0]
    · have e : ∀ w, form (partsAt L1 trace (time + S.d r * out.2)) (y r) w = form (partsAt L1 trace (time + S.d r * out.2)) (out.1 r) w := by
        intro w
        have a := hy r hpos hr w
        have b := hout r hpos hr w
        unfold stageForm at a b
        rw [Finset.sum_range_succ] at a b
        have c : ∀ s ∈ Finset.range r, y s = out.1 s := fun s hs => ih s (Finset.mem_range.mp hs) (by have := Finset.mem_range.mp hs; omega)
        simp only at a b
        rw [Finset.sum_congr rfl fun s hs => by rw [c s hs]] at a
        simp only [(hS r hpos hr).1, (hS r hpos hr).2.1, factors, one_mul, zero_mul, add_zero] at a b
        linear_combination a - b
      have z : (fun k => y r k - out.1 r k) = fun _ => 0 := by
        refine hreg (time + S.d r * out.2) _ fun k => ?_
        have e1 := e fun k' => if k' = k then 1 else 0
        rw [← contribution_pair, ← contribution_pair] at e1
        rw [← form_act L1 h trace _ (fun _ => 0)] at e1 ⊢
        rw [← form_act L1 h trace _ (fun _ => 0)] at e1
        have : matVec (OneStep.form (matrixContribution L1) trace (time + S.d r * out.2) fun _ => 0) (fun k => y r k - out.1 r k) k =
            matVec (OneStep.form (matrixContribution L1) trace (time + S.d r * out.2) fun _ => 0) (y r) k -
            matVec (OneStep.form (matrixContribution L1) trace (time + S.d r * out.2) fun _ => 0) (out.1 r) k := by
          simp [matVec, mul_sub, Finset.sum_sub_distrib]
        exact this.trans (sub_eq_zero.mpr e1)
      funext k
      exact sub_eq_zero.mp (congrFun z k)

end generic

section fv
open GridAssembler LocalOp.CCFV
variable {K P Q I : Type} [Field K] [LinearOrder K] [IsStrictOrderedRing K] [Inhabited I] [DecidableEq I] [Fintype I] {d : Nat}

theorem fv_mass (ap : Bool) (pb : Transient K P Q d) (dof : Nat → I) : Mass (pb.temporal ap dof : LocalParts I K) := by
  have key : ∀ k n τ p, pb.temporal ap dof k n τ = some p → k = .uvVolume ∧
      ∃ cell, p = Part.ofCalls (Equiv.refl (Fin 1)) (fun _ => dof cell) (temporalAlphaVolume (pb.base.cellGeo cell) (pb.base.capacity cell))
        fun _ => temporalJacobianVolume (pb.base.cellGeo cell) (pb.base.capacity cell) := by
    intro k n τ p hp
    unfold Transient.temporal at hp
    cases he : (GridAssembler.assemble engine ap pb.base.cells)[n]? with
    | none => rw [he] at hp; cases hp
    | some e =>
      rw [he] at hp
      obtain ⟨kind, cell, face, index, outside⟩ := e
      cases kind <;> simp [kindOf, temporalPartOf] at hp
      exact ⟨hp.1.symm, cell, hp.2.symm⟩
  constructor
  · intro k n τ hk
    cases hp : pb.temporal ap dof k n τ with
    | none => rfl
    | some p => exact absurd (key k n τ p hp).1 hk
  · intro k n τ p hp
    obtain ⟨-, cell, rfl⟩ := key k n τ p hp
    exact FEMMesh.ofCalls_affine _ _ _ _ (C92_ccfv_temporal _ _).1
  · intro k n τ p hp i hi
    obtain ⟨-, cell, rfl⟩ := key k n τ p hp
    have hi' : i < 1 := hi
    obtain rfl : i = 0 := by omega
    simp [Part.ofCalls, temporalAlphaVolume, LocalOp.Spec.total]

theorem fv_content (ap : Bool) (pb : Transient K P Q d) (hg : ProperGrid ap pb.base.cells) (dof : Nat → I) (hn : Numbering pb.base.cells dof) (τ : K) (x : I → K)
    (c : Cell) (hc : c ∈ pb.base.cells) :
    OneStep.form (contribution (pb.temporal ap dof)) (pb.trace ap) τ x (dof c.id) = content pb.base (inCells dof x) c := by
  rw [contribution_pair, CCFVSolve.parts_temporal, CCFVSolve.mass_at ap pb.base hg dof hn x c hc]

theorem fv_loss (ap : Bool) (pb : Transient K P Q d) (τ : K) (h : WellPosed ap (pb.at τ)) (dof : Nat → I) (hn : Numbering pb.base.cells dof) (x : I → K)
    (c : Cell) (hc : c ∈ pb.base.cells) :
    OneStep.form (contribution (pb.spatial ap dof)) (pb.trace ap) τ x (dof c.id) = cellLoss ap (pb.at τ) (inCells dof x) c := by
  rw [contribution_pair, CCFVSolve.parts_spatial, CCFVSolve.form_at ap (pb.at τ) h.grid dof hn x c hc, CCFVSolve.loss_eq ap (pb.at τ) h _ c hc]

theorem fv_regular (ap : Bool) (pb : Transient K P Q d) (h : WellPosed ap (pb.at 0)) (dof : Nat → I) (hn : Numbering pb.base.cells dof) (τ : K) (x : I → K)
    (hx : ∀ k, OneStep.form (contribution (pb.temporal ap dof)) (pb.trace ap) τ x k = 0) : x = fun _ => 0 := by
  funext i
  obtain ⟨k, hk, rfl⟩ := hn.surjective i
  obtain ⟨c, hc, rfl⟩ := List.mem_map.mp hk
  have e := hx (dof c.id)
  rw [fv_content ap pb h.grid dof hn τ x c hc] at e
  have h1 : pb.base.capacity c.id (pb.base.cellGeo c.id).center ≠ 0 := (h.stable.capacity_pos c hc).ne'
  have h2 : (pb.base.cellGeo c.id).volume ≠ 0 := (h.stable.volume_pos c hc).ne'
  unfold content inCells at e
  rcases mul_eq_zero.mp e with e | e
  · exact (mul_eq_zero.mp e).resolve_left h1
  · exact absurd e h2

theorem outflow_eq (ap : Bool) (pb : Problem K P Q d) (c : Cell) :
    outflowRate ap pb c = (pb.cellPar c.id).c (pb.cellGeo c.id).center * (pb.cellGeo c.id).volume + netOutflow ap pb c +
      ((c.isects.filter (IsInterior ap)).map fun i => coupling pb c.id i.face i.outside).sum +
      ((c.isects.filter IsBoundary).map fun i => if (pb.facePar c.id i.face).bctype (pb.faceGeo c.id i.face).center = .dirichlet
        then boundaryCoupling pb c.id i.face else 0).sum := by
  unfold outflowRate netOutflow
  have e1 : ((c.isects.filter (IsInterior ap)).map fun i =>
      (max (normalVelocity pb c.id i.face) 0 +
        meanDiffusion pb c.id i.face i.outside / pb.twoNorm (cellCentre pb c.id - cellCentre pb i.outside)) * area (pb.faceGeo c.id i.face)).sum =
      ((c.isects.filter (IsInterior ap)).map fun i => normalVelocity pb c.id i.face * area (pb.faceGeo c.id i.face)).sum +
      ((c.isects.filter (IsInterior ap)).map fun i => coupling pb c.id i.face i.outside).sum := by
    rw [← List.sum_map_add]
    congr 1
    refine List.map_congr_left fun i _ => ?_
    have := min_add_max (normalVelocity pb c.id i.face) 0
    unfold coupling
    linear_combination (area (pb.faceGeo c.id i.face)) * this
  rw [e1]
  have key : ∀ a A B S T1 T2 : K, S = T1 + T2 → a + (A + B) + S = a + (A + T1) + B + T2 := by
    intro a A B S T1 T2 h
    linear_combination h
  refine key _ _ _ _ _ _ ?_
  rw [← List.sum_map_add]
  congr 1
  refine List.map_congr_left fun i _ => ?_
  unfold boundaryOutflow boundaryCoupling
  cases (pb.facePar c.id i.face).bctype (pb.faceGeo c.id i.face).center <;> simp
  ring

theorem sum_le_sum_mul {α : Type} (l : List α) (f g : α → K) (t : K) (h : ∀ a ∈ l, f a ≤ g a * t) : (l.map f).sum ≤ (l.map g).sum * t := by
  rw [← List.sum_map_mul_right]
  exact List.sum_le_sum h

/-- What flows into a cell with values below the bound is limited by the distance to the bound. -/
theorem gain_le (ap : Bool) (pb : Problem K P Q d) (h : WellPosed ap pb) (M : K) (hM : BoundedAbove ap pb M) (u : Nat → K)
    (hu : ∀ c ∈ pb.cells, u c.id ≤ M) (c : Cell) (hc : c ∈ pb.cells) : -cellLoss ap pb u c ≤ outflowRate ap pb c * (M - u c.id) := by
  rw [← CCFVSolve.loss_eq ap pb h u c hc, MaximumPrinciple.balance ap pb h.grid h.shared h.consistent u c hc, outflow_eq]
  have hs := hM.source c hc
  have h1 : ((c.isects.filter (IsInterior ap)).map fun i => -((u c.id - u i.outside) * coupling pb c.id i.face i.outside)).sum ≤
      ((c.isects.filter (IsInterior ap)).map fun i => coupling pb c.id i.face i.outside).sum * (M - u c.id) := by
    refine sum_le_sum_mul _ _ _ _ fun i hi => ?_
    obtain ⟨hi1, hi2⟩ := List.mem_filter.mp hi
    obtain ⟨c', hc', e⟩ := List.mem_map.mp (h.grid.outside_mem c hc i hi1 (by simpa using hi2))
    have hk := MaximumPrinciple.coupling_nonneg pb h.stable c hc i hi1
    have := hu c' hc'
    rw [e] at this
    nlinarith
  have h2 : ((c.isects.filter IsBoundary).map fun i => -MaximumPrinciple.boundaryExcess pb u c.id i.face).sum ≤
      ((c.isects.filter IsBoundary).map fun i => if (pb.facePar c.id i.face).bctype (pb.faceGeo c.id i.face).center = .dirichlet
        then boundaryCoupling pb c.id i.face else 0).sum * (M - u c.id) := by
    refine sum_le_sum_mul _ _ _ _ fun i hi => ?_
    obtain ⟨hi1, hi2⟩ := List.mem_filter.mp hi
    have hb : IsBoundary i := by simpa using hi2
    have ha := h.stable.area_nonneg c hc i hi1
    unfold MaximumPrinciple.boundaryExcess
    split
    · rename_i ht
      have hk := MaximumPrinciple.boundaryCoupling_nonneg pb h.stable c hc i hi1 hb ht
      have := hM.dirichlet c hc i hi1 hb ht
      rw [if_pos ht]
      nlinarith
    · rename_i ht
      have := mul_nonneg (hM.neumann c hc i hi1 hb ht) ha
      rw [ht, if_neg (by simp)]
      linarith
    · rename_i ht
      have := mul_nonneg (hM.outflow c hc i hi1 hb ht) ha
      rw [ht, if_neg (by simp)]
      linarith
    · rename_i ht
      rw [ht, if_neg (by simp)]
      simp
  have s1 : ∀ (l : List Isect) (f : Isect → K), (l.map fun i => -f i).sum = -(l.map f).sum := by
    intro l f
    induction l with
    | nil => simp
    | cons a l ih => simp only [List.map_cons, List.sum_cons, ih]; ring
  rw [s1] at h1 h2
  nlinarith

/-- A step of the explicit Euler method in a cell. -/
theorem euler_le (ap : Bool) (pb : Problem K P Q d) (h : WellPosed ap pb) (M : K) (hM : BoundedAbove ap pb M) (dt : K) (hdt : 0 ≤ dt)
    (hb : StepSizeBound ap pb dt) (u : Nat → K) (hu : ∀ c ∈ pb.cells, u c.id ≤ M) (c : Cell) (hc : c ∈ pb.cells) (v : Nat → K)
    (hv : content pb v c = content pb u c - dt * cellLoss ap pb u c) : v c.id ≤ M := by
  have h1 := mul_le_mul_of_nonneg_left (gain_le ap pb h M hM u hu c hc) hdt
  have h2 := mul_le_mul_of_nonneg_right (hb c hc) (sub_nonneg.mpr (hu c hc))
  have hp := mul_pos (h.stable.capacity_pos c hc) (h.stable.volume_pos c hc)
  unfold content at hv
  by_contra hlt
  have := mul_pos hp (sub_pos.mpr (not_le.mp hlt))
  nlinarith

theorem negated_wellPosed (ap : Bool) (pb : Problem K P Q d) (h : WellPosed ap pb) : WellPosed ap (MaximumPrinciple.negated pb) :=
  ⟨h.grid, h.shared, ⟨h.consistent.norm_neg, h.consistent.area_eq, h.consistent.normal_eq, h.consistent.velocity_eq⟩,
    MaximumPrinciple.negated_stable pb h.stable, h.accumulation⟩

theorem euler_ge (ap : Bool) (pb : Problem K P Q d) (h : WellPosed ap pb) (m : K) (hm : BoundedBelow ap pb m) (dt : K) (hdt : 0 ≤ dt)
    (hb : StepSizeBound ap pb dt) (u : Nat → K) (hu : ∀ c ∈ pb.cells, m ≤ u c.id) (c : Cell) (hc : c ∈ pb.cells) (v : Nat → K)
    (hv : content pb v c = content pb u c - dt * cellLoss ap pb u c) : m ≤ v c.id := by
  have hn := negated_wellPosed ap pb h
  have := euler_le ap (MaximumPrinciple.negated pb) hn (-m) (MaximumPrinciple.negated_bounded ap pb m hm) dt hdt hb (fun k => -u k)
    (fun c hc => neg_le_neg (hu c hc)) c hc (fun k => -v k) (by
      rw [← CCFVSolve.loss_eq ap _ hn _ c hc, MaximumPrinciple.negated_residual ap pb h.grid h.shared h.consistent u c hc,
        CCFVSolve.loss_eq ap pb h u c hc]
      have e : ∀ w : Nat → K, content (MaximumPrinciple.negated pb) (fun k => -w k) c = -content pb w c := by
        intro w
        unfold content
        have e : (MaximumPrinciple.negated pb).capacity = pb.capacity ∧ (MaximumPrinciple.negated pb).cellGeo = pb.cellGeo := ⟨rfl, rfl⟩
        rw [e.1, e.2]
        ring
      rw [e, e, hv]
      ring)
  exact neg_le_neg_iff.mp this

end fv
end Verif.ExplicitSolve
