import Verif.Spec.TransientSolve
import Verif.Props.ConstrainedSolve
import Verif.Props.OneStepOperator
import Verif.Props.OneStepMethod
import Verif.Proofs.FEMMesh
import Verif.Proofs.MassOperators
/-
Helper lemmas for C241: the residual of a stage as the residual of a stationary problem.
-/
set_option linter.unusedSectionVars false
namespace Verif.TransientSolve
open ConstrainedSolve Constraints Assembly
open OneStep (Kind Op Setting St NoTinyCoefficients factors)

section generic
variable {I K : Type} [DecidableEq I] [Fintype I] [Field K] [LinearOrder K] [IsStrictOrderedRing K]

/-- A constant vector as a contribution. -/
noncomputable def constPart (i0 : I) (c : I → K) : Part I K where
  nv := (Finset.univ : Finset I).toList.length
  nu := 0
  v i := (Finset.univ : Finset I).toList.getD i i0
  u _ := i0
  residual _ i := c ((Finset.univ : Finset I).toList.getD i i0)
  jacobian _ _ _ := 0

theorem sum_range_getD {α : Type} (l : List α) (a : α) (f : α → K) : ((List.range l.length).map fun i => f (l.getD i a)).sum = (l.map f).sum := by
  congr 1
  refine List.ext_getElem (by simp) fun i h1 h2 => ?_
  simp only [List.length_map, List.length_range] at h1
  simp [List.getD_eq_getElem?_getD, List.getElem?_eq_getElem h1]

theorem constPart_form (i0 : I) (c : I → K) (x w : I → K) : form [constPart i0 c] x w = ∑ k, w k * c k := by
  unfold form constPart
  simp only [List.map_cons, List.map_nil, List.sum_cons, List.sum_nil, add_zero]
  rw [sum_range_getD _ i0 (fun k => w k * c k), Finset.sum_map_toList]

theorem form_append (p q : List (Part I K)) (x w : I → K) : form (p ++ q) x w = form p x w + form q x w := by
  unfold form
  rw [List.map_append, List.sum_append]

theorem assembled_form (parts : List (Part I K)) (x r : I → K) (k : I) :
    parts.foldl (addLocal x) r k = r k + form parts x fun k' => if k' = k then 1 else 0 := by
  rw [assembled_apply, form_eq]

theorem residual_const {t : Trafo I K} (i0 : I) (parts : List (Part I K)) (c x : I → K) :
    residual t (parts ++ [constPart i0 c]) x = constrainResidual t fun k => parts.foldl (addLocal x) (fun _ => 0) k + c k := by
  unfold residual
  congr 1
  funext k
  rw [assembled_form, assembled_form, form_append, constPart_form]
  simp

theorem assembleParts_const (t : Trafo I K) (symmetric : Bool) (p : JacobianPart I K) (hp : p.nu = 0) :
    ∀ (parts : List (JacobianPart I K)) (cv cu : Cache I K) (m : Assembly.Matrix I K),
      assembleParts t t symmetric (parts ++ [p]) cv cu m = assembleParts t t symmetric parts cv cu m := by
  intro parts
  induction parts with
  | nil =>
    intro cv cu m
    have hs : ∀ A : Nat → Nat → K, scatterJacobian t (cv.update t p.nv p.v) (cu.update t p.nu p.u) symmetric A = some [] := by
      intro A
      have h0 : (cu.update t p.nu p.u).size = 0 := by
        rw [hp]
        unfold Cache.update
        dsimp only
        split <;> simp
      unfold scatterJacobian etaddSymmetric etadd clearConstrainedColumns addPlain
      simp [h0]
    simp [assembleParts, hs]
  | cons q ps ih =>
    intro cv cu m
    simp only [List.cons_append, assembleParts, ih]

theorem jacobian_const (t : Trafo I K) (symmetric : Bool) (ci0 : Nat → I) (pattern : List (PatternPart I)) (parts : List (Part I K)) (i0 : I) (c x : I → K) :
    jacobian t symmetric ci0 pattern (parts ++ [constPart i0 c]) x = jacobian t symmetric ci0 pattern parts x := by
  unfold jacobian assembleJacobian
  dsimp only
  rw [List.map_append, List.map_cons, List.map_nil, assembleParts_const t symmetric ((constPart i0 c).matrix x) rfl]

/-- The vector of the contributions of an operator. -/
theorem contribution_form (L : LocalParts I K) (trace : List (Kind × Nat)) (τ : K) (x : I → K) :
    OneStep.form (contribution L) trace τ x = (partsAt L trace τ).foldl (addLocal x) fun _ => 0 := by
  funext k
  rw [assembled_form, zero_add]
  induction trace with
  | nil => simp [OneStep.form, partsAt, form]
  | cons c trace ih =>
    rw [OneStep.form_cons, Pi.add_apply, ih]
    unfold partsAt
    rw [List.filterMap_cons]
    unfold contribution
    cases h : L c.1 c.2 τ with
    | none => simp
    | some p =>
      simp only [form, List.map_cons, List.sum_cons]
      rw [addLocal_apply, zero_add]
      rfl

theorem stageParts_form (P : Setting K) (L0 L1 : LocalParts I K) (hL : NoPost L1) (trace : List (Kind × Nat)) (x w : I → K)
    (ht : P.scheme.b P.stage P.stage = 0 ∨ |P.scheme.b P.stage P.stage| > 1 / 1000000) :
    form (stageParts P L0 L1 trace) x w =
      P.factor1 * form (partsAt L1 trace (P.time + P.scheme.d P.stage * P.dt)) x w +
      P.scheme.b P.stage P.stage * P.factor0 * form (partsAt L0 trace (P.time + P.scheme.d P.stage * P.dt)) x w := by
  have hsc : ∀ (a : K) (p : Part I K), form [p.scaled a] x w = a * form [p] x w := by
    intro a p
    simp only [form, Part.scaled, List.map_cons, List.map_nil, List.sum_cons, List.sum_nil, add_zero, mul_left_comm (w _) a, List.sum_map_mul_left]
  have hcons : ∀ (p : Part I K) l, form (p :: l) x w = form [p] x w + form l x w := fun p l => form_append [p] l x w
  have hnil : form ([] : List (Part I K)) x w = 0 := rfl
  induction trace with
  | nil => simp [stageParts, partsAt, form]
  | cons c trace ih =>
    have e : stageParts P L0 L1 (c :: trace) = (if |P.scheme.b P.stage P.stage| > OneStep.threshold then
        (L0 c.1 c.2 (P.time + P.scheme.d P.stage * P.dt)).toList.map (Part.scaled (P.scheme.b P.stage P.stage * P.factor0)) else []) ++
      (if OneStep.forwards1 c.1 then (L1 c.1 c.2 (P.time + P.scheme.d P.stage * P.dt)).toList.map (Part.scaled P.factor1) else []) ++
      stageParts P L0 L1 trace := rfl
    rw [e, form_append, form_append, ih]
    have h0 : form (if |P.scheme.b P.stage P.stage| > OneStep.threshold then
        (L0 c.1 c.2 (P.time + P.scheme.d P.stage * P.dt)).toList.map (Part.scaled (P.scheme.b P.stage P.stage * P.factor0)) else []) x w =
        P.scheme.b P.stage P.stage * P.factor0 * form (L0 c.1 c.2 (P.time + P.scheme.d P.stage * P.dt)).toList x w := by
      unfold OneStep.threshold
      rcases ht with h | h
      · rw [h, abs_zero, if_neg (by norm_num)]
        simp [form]
      · rw [if_pos h]
        cases L0 c.1 c.2 (P.time + P.scheme.d P.stage * P.dt) with
        | none => simp [form]
        | some p => exact hsc _ p
    have h1 : form (if OneStep.forwards1 c.1 then (L1 c.1 c.2 (P.time + P.scheme.d P.stage * P.dt)).toList.map (Part.scaled P.factor1) else []) x w =
        P.factor1 * form (L1 c.1 c.2 (P.time + P.scheme.d P.stage * P.dt)).toList x w := by
      have hf : OneStep.forwards1 c.1 = false → L1 c.1 c.2 (P.time + P.scheme.d P.stage * P.dt) = none := by
        intro h
        have := hL c.2 (P.time + P.scheme.d P.stage * P.dt)
        cases hk : c.1 <;> rw [hk] at h <;> first | exact absurd h (by decide) | exact this.1 | exact this.2
      cases hk : OneStep.forwards1 c.1 with
      | false =>
        rw [hf hk]
        simp [form]
      | true =>
        cases L1 c.1 c.2 (P.time + P.scheme.d P.stage * P.dt) with
        | none => simp [form]
        | some p => exact hsc _ p
    have hp : ∀ L : LocalParts I K, form (partsAt L (c :: trace) (P.time + P.scheme.d P.stage * P.dt)) x w =
        form (L c.1 c.2 (P.time + P.scheme.d P.stage * P.dt)).toList x w + form (partsAt L trace (P.time + P.scheme.d P.stage * P.dt)) x w := by
      intro L
      unfold partsAt
      rw [List.filterMap_cons]
      cases L c.1 c.2 (P.time + P.scheme.d P.stage * P.dt) with
      | none => simp [form]
      | some p => exact hcons _ _
    rw [h0, h1, hp, hp]
    ring

/-- What `stageParts` consists of. -/
theorem mem_stageParts (P : Setting K) (L0 L1 : LocalParts I K) (trace : List (Kind × Nat)) (p : Part I K) (hp : p ∈ stageParts P L0 L1 trace) :
    ∃ (a : K) (q : Part I K), p = q.scaled a ∧ (q ∈ partsAt L0 trace (P.time + P.scheme.d P.stage * P.dt) ∨
      q ∈ partsAt L1 trace (P.time + P.scheme.d P.stage * P.dt)) := by
  unfold stageParts at hp
  obtain ⟨c, hc, hp⟩ := List.mem_flatMap.mp hp
  rcases List.mem_append.mp hp with hp | hp
  · split at hp
    · obtain ⟨q, hq, rfl⟩ := List.mem_map.mp hp
      exact ⟨_, q, rfl, Or.inl (List.mem_filterMap.mpr ⟨c, hc, by simpa using hq⟩)⟩
    · cases hp
  · split at hp
    · obtain ⟨q, hq, rfl⟩ := List.mem_map.mp hp
      exact ⟨_, q, rfl, Or.inr (List.mem_filterMap.mpr ⟨c, hc, by simpa using hq⟩)⟩
    · cases hp

theorem scaled_affine (a : K) (p : Part I K) (h : Affine p (p.jacobian fun _ => 0) (p.residual fun _ => 0)) :
    Affine (p.scaled a) ((p.scaled a).jacobian fun _ => 0) ((p.scaled a).residual fun _ => 0) := by
  intro x
  obtain ⟨h1, h2⟩ := h x
  refine ⟨?_, fun i hi => ?_⟩
  · funext i j
    simp only [Part.scaled, h1]
  · simp only [Part.scaled]
    rw [h2 i hi, mul_add, ← List.sum_map_mul_left]
    simp only [mul_assoc]

theorem const_affine (i0 : I) (c : I → K) :
    Affine (constPart i0 c) ((constPart i0 c).jacobian fun _ => 0) ((constPart i0 c).residual fun _ => 0) := by
  intro x
  refine ⟨rfl, fun i hi => ?_⟩
  simp [constPart]

theorem fits (t : Trafo I K) (pattern : List (PatternPart I)) (P : Setting K) (L0 L1 : LocalParts I K) (trace : List (Kind × Nat))
    (h0 : PatternFits t pattern (partsAt L0 trace (P.time + P.scheme.d P.stage * P.dt)))
    (h1 : PatternFits t pattern (partsAt L1 trace (P.time + P.scheme.d P.stage * P.dt))) (i0 : I) (c : I → K) :
    PatternFits t pattern (stageParts P L0 L1 trace ++ [constPart i0 c]) where
  valid := h0.valid
  diagonal := h0.diagonal
  covered x p hp i hi j hj hA := by
    obtain ⟨p, hm, rfl⟩ := List.mem_map.mp hp
    rcases List.mem_append.mp hm with hm | hm
    · obtain ⟨a, q, rfl, hq⟩ := mem_stageParts P L0 L1 trace p hm
      have hA' : (q.matrix x).A i j ≠ 0 := fun h => hA (by
        change a * q.jacobian (q.read x) i j = 0
        have : q.jacobian (q.read x) i j = 0 := h
        rw [this, mul_zero])
      rcases hq with hq | hq
      · exact h0.covered x (q.matrix x) (List.mem_map.mpr ⟨q, hq, rfl⟩) i hi j hj hA'
      · exact h1.covered x (q.matrix x) (List.mem_map.mpr ⟨q, hq, rfl⟩) i hi j hj hA'
    · rw [List.mem_singleton.mp hm] at hj
      exact absurd hj (Nat.not_lt_zero _)

theorem noPost_skeleton (L1 : LocalParts I K) (h : NoPost L1) : OneStep.NoPostSkeleton (contribution L1) := by
  intro k e τ x hk
  unfold contribution
  rcases hk with rfl | rfl
  · rw [(h e τ).1]
    rfl
  · rw [(h e τ).2]
    rfl

/-- The constraints leave the product with a test function unchanged. -/
theorem constrained_pair {t : Trafo I K} (h : Admissible t) (i0 : I) (c w : I → K) (hw : Homogeneous t w) :
    ∑ k, w k * constrainResidual t c k = ∑ k, w k * c k := by
  have h1 := form_residual h [constPart i0 c] (fun _ => 0) w hw
  have h2 := residual_const (t := t) i0 [] c (fun _ => 0)
  simp only [List.nil_append, List.foldl_nil, zero_add] at h2
  rw [constPart_form, h2] at h1
  exact h1.symm

theorem sum_contribution (L : LocalParts I K) (trace : List (Kind × Nat)) (τ : K) (x w : I → K) :
    ∑ k, w k * OneStep.form (contribution L) trace τ x k = form (partsAt L trace τ) x w := by
  simp only [contribution_form, assembled_form, zero_add]
  rw [form_eq]
  simp only [form_eq, ← pair_smul_left]
  rw [← pair_sum_left]
  refine pair_congr _ _ _ _ _ (fun k => ?_) fun _ _ _ _ => rfl
  simp

/-- The constant part of the residual, tested. -/
theorem const_pair {t : Trafo I K} (h : Admissible t) (i0 : I) (P : Setting K) (L0 L1 : LocalParts I K) (trace : List (Kind × Nat)) (x : Nat → I → K)
    (st : St K (I → K) (I → K)) (ht : NoTinyCoefficients P.scheme P.stage) (w : I → K) (hw : Homogeneous t w) :
    ∑ k, w k * stageConst t P L0 L1 trace x st k = ∑ s ∈ Finset.range P.stage,
      (P.scheme.a P.stage s * P.factor1 * form (partsAt L1 trace (P.time + P.scheme.d s * P.dt)) (x s) w +
       P.scheme.b P.stage s * P.factor0 * form (partsAt L0 trace (P.time + P.scheme.d s * P.dt)) (x s) w) := by
  unfold stageConst
  rw [constrained_pair h i0 _ w hw, preStage_const P _ _ x trace st ht]
  simp only [Finset.sum_apply, Finset.mul_sum]
  rw [Finset.sum_comm]
  refine Finset.sum_congr rfl fun s _ => ?_
  simp only [← sum_contribution, Finset.mul_sum, ← Finset.sum_add_distrib, Pi.add_apply, Pi.smul_apply, smul_eq_mul]
  exact Finset.sum_congr rfl fun k _ => by ring

/-- The stage as a stationary problem. -/
theorem stage_form {t : Trafo I K} (h : Admissible t) (i0 : I) (P : Setting K) (L0 L1 : LocalParts I K) (hL : NoPost L1) (trace : List (Kind × Nat))
    (x : Nat → I → K) (st : St K (I → K) (I → K)) (ha : P.scheme.a P.stage P.stage = 1) (ht : NoTinyCoefficients P.scheme P.stage) (w : I → K)
    (hw : Homogeneous t w) :
    form (stageParts P L0 L1 trace ++ [constPart i0 (stageConst t P L0 L1 trace x st)]) (x P.stage) w = stageForm P L0 L1 trace x w := by
  rw [form_append, constPart_form, const_pair h i0 P L0 L1 trace x st ht w hw,
    stageParts_form P L0 L1 hL trace _ w (ht P.stage (le_refl _)).2]
  unfold stageForm
  rw [Finset.sum_range_succ, OneStep.factors_eq, ha]
  ring

theorem stage_residual {t : Trafo I K} (i0 : I) (P : Setting K) (L0 L1 : LocalParts I K) (hL : NoPost L1) (trace : List (Kind × Nat))
    (c x : I → K) (ht : P.scheme.b P.stage P.stage = 0 ∨ |P.scheme.b P.stage P.stage| > 1 / 1000000) :
    stageResidual t P L0 L1 c trace x = residual t (stageParts P L0 L1 trace ++ [constPart i0 c]) x := by
  rw [residual_const]
  unfold stageResidual
  congr 1
  unfold OneStep.residual
  dsimp only
  rw [OneStep.baseFold_res, form_forwards _ (noPost_skeleton L1 hL)]
  funext k
  simp only [OneStep.stageState, Pi.add_apply, assembled_form, zero_add]
  rw [stageParts_form P L0 L1 hL trace x _ ht]
  have hk : ∀ L : LocalParts I K, ∀ τ, OneStep.form (contribution L) trace τ x k = form (partsAt L trace τ) x fun k' => if k' = k then 1 else 0 := by
    intro L τ
    rw [contribution_form, assembled_form, zero_add]
  have h0 : (if decide (|P.scheme.b P.stage P.stage| > OneStep.threshold) = true then
      (P.scheme.b P.stage P.stage * P.factor0) • OneStep.form (contribution L0) trace (P.time + P.scheme.d P.stage * P.dt) x else 0) =
      (P.scheme.b P.stage P.stage * P.factor0) • OneStep.form (contribution L0) trace (P.time + P.scheme.d P.stage * P.dt) x := by
    simp only [decide_eq_true_eq]
    exact tiny_smul _ _ _ ht
  rw [h0]
  simp only [Pi.smul_apply, smul_eq_mul, hk]
  ring

theorem stageSolve_eq {t : Trafo I K} (i0 : I) (symmetric : Bool) (ci0 : Nat → I) (pattern : List (PatternPart I)) (P : Setting K) (L0 L1 : LocalParts I K)
    (hL : NoPost L1) (trace : List (Kind × Nat)) (st : St K (I → K) (I → K)) (solve : Assembly.Matrix I K → (I → K) → I → K) (xs : List (I → K))
    (ht : P.scheme.b P.stage P.stage = 0 ∨ |P.scheme.b P.stage P.stage| > 1 / 1000000) (x : I → K) :
    stageSolve t symmetric ci0 pattern P L0 L1 trace st solve xs x =
      applyLinear t symmetric ci0 pattern (stageParts P L0 L1 trace ++ [constPart i0 (stageConst t P L0 L1 trace (fun s => xs.getD s fun _ => 0) st)])
        solve true x := by
  unfold stageSolve applyLinear
  simp only [if_true, jacobian_const, stage_residual i0 P L0 L1 hL trace _ _ ht]

theorem stage_congr (P : Setting K) (L0 L1 : LocalParts I K) (trace : List (Kind × Nat)) (x y : Nat → I → K) (h : ∀ s, s ≤ P.stage → x s = y s) (w : I → K) :
    stageForm P L0 L1 trace x w = stageForm P L0 L1 trace y w := by
  unfold stageForm
  refine Finset.sum_congr rfl fun s hs => ?_
  rw [h s (by have := Finset.mem_range.mp hs; omega)]

/-- One stage. -/
theorem stage (t : Trafo I K) (h : Admissible t) (symmetric : Bool) (ci0 : Nat → I) (pattern : List (PatternPart I)) (P : Setting K)
    (L0 L1 : LocalParts I K) (hL : NoPost L1) (trace : List (Kind × Nat)) (ha : P.scheme.a P.stage P.stage = 1)
    (ht : NoTinyCoefficients P.scheme P.stage)
    (h0 : PatternFits t pattern (partsAt L0 trace (P.time + P.scheme.d P.stage * P.dt)))
    (h1 : PatternFits t pattern (partsAt L1 trace (P.time + P.scheme.d P.stage * P.dt)))
    (ha0 : ∀ p ∈ partsAt L0 trace (P.time + P.scheme.d P.stage * P.dt), Affine p (p.jacobian fun _ => 0) (p.residual fun _ => 0))
    (ha1 : ∀ p ∈ partsAt L1 trace (P.time + P.scheme.d P.stage * P.dt), Affine p (p.jacobian fun _ => 0) (p.residual fun _ => 0))
    (hreg : ∀ y, Homogeneous t y → (∀ w, Homogeneous t w →
      (factors P.mode P.dt).2 * bilinear (partsAt L1 trace (P.time + P.scheme.d P.stage * P.dt)) y w +
      P.scheme.b P.stage P.stage * (factors P.mode P.dt).1 * bilinear (partsAt L0 trace (P.time + P.scheme.d P.stage * P.dt)) y w = 0) → ∀ k, y k = 0)
    (st : St K (I → K) (I → K)) (solve : Assembly.Matrix I K → (I → K) → I → K) (hs : Exact solve) (x : Nat → I → K) (guess : I → K) :
    ∃ x', stageSolve t symmetric ci0 pattern P L0 L1 trace st solve ((List.range P.stage).map x) guess = some x' ∧
      (Conforming t x' ∧ (∀ k, t.Dirichlet k → x' k = guess k) ∧ ∀ w, Homogeneous t w → stageForm P L0 L1 trace (OneStep.upd x P.stage x') w = 0) ∧
      ∀ y, Conforming t y → (∀ k, t.Dirichlet k → y k = guess k) →
        (∀ w, Homogeneous t w → stageForm P L0 L1 trace (OneStep.upd x P.stage y) w = 0) → y = x' := by
  have htb := (ht P.stage (le_refl _)).2
  have hcon : stageConst t P L0 L1 trace (fun s => ((List.range P.stage).map x).getD s fun _ => 0) st = stageConst t P L0 L1 trace x st := by
    unfold stageConst
    rw [preStage_const P _ _ _ trace st ht, preStage_const P _ _ _ trace st ht]
    congr 1
    refine Finset.sum_congr rfl fun s hs => ?_
    have hs' := Finset.mem_range.mp hs
    have : ((List.range P.stage).map x).getD s (fun _ => 0) = x s := by
      simp [List.getD_eq_getElem?_getD, hs']
    simp only [this]
  rw [stageSolve_eq (ci0 0) symmetric ci0 pattern P L0 L1 hL trace st solve _ htb, hcon]
  have hform : ∀ y w, Homogeneous t w →
      form (stageParts P L0 L1 trace ++ [constPart (ci0 0) (stageConst t P L0 L1 trace x st)]) y w = stageForm P L0 L1 trace (OneStep.upd x P.stage y) w := by
    intro y w hw
    have := stage_form h (ci0 0) P L0 L1 hL trace (OneStep.upd x P.stage y) st ha ht w hw
    have e1 : OneStep.upd x P.stage y P.stage = y := by simp [OneStep.upd]
    have e2 : stageConst t P L0 L1 trace (OneStep.upd x P.stage y) st = stageConst t P L0 L1 trace x st := by
      unfold stageConst
      rw [preStage_const P _ _ _ trace st ht, preStage_const P _ _ _ trace st ht]
      congr 1
      refine Finset.sum_congr rfl fun s hs => ?_
      have hs' := Finset.mem_range.mp hs
      have : OneStep.upd x P.stage y s = x s := by
        unfold OneStep.upd
        rw [if_neg (by omega)]
      simp only [this]
    rw [e1, e2] at this
    exact this
  obtain ⟨x', e1, e2, e3, e4⟩ := C232_linear_solver t h symmetric ci0 pattern _
    (fits t pattern P L0 L1 trace h0 h1 (ci0 0) (stageConst t P L0 L1 trace x st)) (fun p => p.jacobian fun _ => 0) (fun p => p.residual fun _ => 0)
    (by
      intro p hp
      rcases List.mem_append.mp hp with hp | hp
      · obtain ⟨a, q, rfl, hq⟩ := mem_stageParts P L0 L1 trace p hp
        rcases hq with hq | hq
        · exact scaled_affine a q (ha0 q hq)
        · exact scaled_affine a q (ha1 q hq)
      · rw [List.mem_singleton.mp hp]
        exact const_affine _ _)
    (by
      intro y hy hw
      refine hreg y hy fun w hw' => ?_
      have := hw w hw'
      unfold bilinear at this
      rw [form_append, form_append, constPart_form, constPart_form, stageParts_form P L0 L1 hL trace _ _ htb,
        stageParts_form P L0 L1 hL trace _ _ htb] at this
      unfold bilinear
      rw [OneStep.factors_eq]
      linear_combination this) solve hs guess
  refine ⟨x', e1, ⟨e2.1, e3, fun w hw => ?_⟩, fun y hy hd hw => e4 y ⟨hy, fun w hw' => ?_⟩ hd⟩
  · rw [← hform x' w hw]
    exact e2.2 w hw
  · rw [hform y w hw']
    exact hw w hw'

end generic

section loop
variable {σ X T : Type} [Add T]

/-- A run in which every solve succeeds. -/
theorem loop_all (E : OneStep.Env σ X T) (hpre : ∀ r xs, E.preStageOk r xs = true) (hinit : ∀ r mem i, i ≠ r → E.initStage r mem i = mem i)
    (Good : Nat → (Nat → X) → Prop) (hloc : ∀ r m m', (∀ i, i ≤ r → m i = m' i) → Good r m → Good r m')
    (hsol : ∀ st r mem, 1 ≤ r → r ≤ E.s → (E.solve st r ((List.range r).map mem) (E.initStage r mem r)).2.1 = true ∧
      Good r (OneStep.upd mem r (E.solve st r ((List.range r).map mem) (E.initStage r mem r)).2.2.1)) :
    ∀ n r (R : OneStep.Run σ X T), 1 ≤ r → r + n = E.s + 1 → (∀ q, 1 ≤ q → q < r → Good q R.mem) →
      ∃ R', OneStep.stageLoop E n r R = (.success, R') ∧ (∀ q, 1 ≤ q → q ≤ E.s → Good q R'.mem) ∧ ∀ i, i < r → R'.mem i = R.mem i := by
  intro n
  induction n with
  | zero =>
    intro r R h1 h2 h3
    exact ⟨R, rfl, fun q a b => h3 q a (by omega), fun _ _ => rfl⟩
  | succ n ih =>
    intro r R h1 h2 h3
    obtain ⟨hok, hgood⟩ := hsol R.st r R.mem h1 (by omega)
    unfold OneStep.stageLoop
    dsimp only
    rw [if_neg (by rw [hpre]; decide), if_pos hok]
    have hmem : ∀ i, i < r → OneStep.upd (E.initStage r R.mem) r (E.solve R.st r ((List.range r).map R.mem) (E.initStage r R.mem r)).2.2.1 i = R.mem i := by
      intro i hi
      unfold OneStep.upd
      rw [if_neg (by omega), hinit r R.mem i (by omega)]
    obtain ⟨R', e1, e2, e3⟩ := ih (r + 1) ⟨OneStep.upd (E.initStage r R.mem) r (E.solve R.st r ((List.range r).map R.mem) (E.initStage r R.mem r)).2.2.1, _, _, _⟩
      (by omega) (by omega) (by
        intro q hq1 hq2
        by_cases hq : q = r
        · subst hq
          refine hloc q _ _ (fun i hi => ?_) hgood
          by_cases hi' : i = q
          · subst hi'
            simp [OneStep.upd]
          · change _ = OneStep.upd (E.initStage q R.mem) q _ i
            rw [hmem i (by omega)]
            unfold OneStep.upd
            rw [if_neg hi']
        · exact hloc q R.mem _ (fun i hi => (hmem i (by omega)).symm) (h3 q hq1 (by omega)))
    exact ⟨R', e1, e2, fun i hi => (e3 i (by omega)).trans (hmem i hi)⟩

end loop

section fem
open LocalOp LocalOp.Spec LocalOp.FEM Matrix FEMMesh
variable {K P Q I : Type} [Field K] [LinearOrder K] [Inhabited I] {d N : Nat} {n : Fin N → Nat}

theorem filterMap_range {α : Type} (N : Nat) (f : Fin N → α) :
    ((List.range N).filterMap fun e => if h : e < N then some (f ⟨e, h⟩) else none) = (List.finRange N).map f := by
  have h1 : ∀ l : List (Fin N), (l.map fun i : Fin N => i.val).filterMap (fun e => if h : e < N then some (f ⟨e, h⟩) else none) = l.map f := by
    intro l
    induction l with
    | nil => rfl
    | cons a l ih => simp [ih]
  rw [← h1]
  congr 1
  refine List.ext_getElem (by simp) fun i h1 h2 => by simp

theorem filterMap_getElem {α β : Type} (f : α → β) : ∀ l : List α, ((List.range l.length).filterMap fun e => l[e]?.map f) = l.map f := by
  intro l
  induction l with
  | nil => rfl
  | cons a l ih =>
    rw [List.length_cons, List.range_succ_eq_map, List.filterMap_cons]
    simp only [List.getElem?_cons_zero, Option.map_some, List.filterMap_map, List.map_cons]
    congr 1

theorem parts_spatial (add : Int) (pb : Transient K P Q I d n) (τ : K) : partsAt (pb.spatial add) pb.trace τ = meshParts add (pb.at τ) := by
  unfold partsAt Transient.trace meshParts
  rw [List.filterMap_append, List.filterMap_map, List.filterMap_map]
  congr 1
  · rw [← filterMap_range]
    rfl
  · have : (pb.at τ).boundary = pb.boundary.map fun F => F τ := rfl
    rw [this, List.map_map]
    exact filterMap_getElem (fun F => facePart add (pb.at τ) (F τ)) pb.boundary

theorem parts_temporal (o : Int) (sc : K) (pb : Transient K P Q I d n) (τ : K) :
    partsAt (pb.temporal o sc) pb.trace τ = (List.finRange N).map (massPart o sc pb) := by
  unfold partsAt Transient.trace
  rw [List.filterMap_append, List.filterMap_map, List.filterMap_map]
  have h2 : ∀ l : List Nat, l.filterMap ((fun c : Kind × Nat => pb.temporal o sc c.1 c.2 τ) ∘ fun F => (Kind.uvBoundary, F)) = [] := by
    intro l
    rw [List.filterMap_eq_nil_iff]
    intro a _
    rfl
  rw [h2, List.append_nil, ← filterMap_range]
  rfl

theorem temporal_noPost (o : Int) (sc : K) (pb : Transient K P Q I d n) : NoPost (pb.temporal o sc) := fun _ _ => ⟨rfl, rfl⟩

theorem mass_linear {n : Nat} (o : Int) (sc : K) (geo : CellGeo K P d) (fe : Basis K P d n) :
    LinearPlus (fun x => total (L2.scalarAlphaVolume o sc geo fe x)) (total (L2.scalarJacobianVolume o sc geo fe)) fun _ => 0 := by
  unfold L2.scalarAlphaVolume L2.scalarJacobianVolume
  refine linearPlus_flatMap_zero _ _ _ ?_
  rintro ⟨ip, w⟩ _ x i
  have h1 : ∀ v : Fin n → K, (List.finRange n).map (fun i => (i, v i)) = forEach v := fun _ => rfl
  have h2 : ∀ v : Fin n → Fin n → K, ((List.finRange n).flatMap fun j => (List.finRange n).map fun i => ((i, j), v i j)) = forEach₂ v := fun _ => rfl
  simp only [h1, h2 (fun i j => fe.phi ip j * fe.phi ip i * (sc * w * geo.integrationElement ip)), total_forEach, applyMatrix, total_forEach₂, add_zero,
    Finset.sum_mul]
  exact Finset.sum_congr rfl fun j _ => by ring

theorem mass_tested {n : Nat} (o : Int) (sc : K) (geo : CellGeo K P d) (fe : Basis K P d n) (x w : Fin n → K) :
    tested (L2.scalarAlphaVolume o sc geo fe x) w = integrate geo (2 * fe.order + o) fun p => sc * value fe x p * value fe w p := by
  unfold L2.scalarAlphaVolume integrate
  rw [tested_flatMap]
  congr 1
  refine List.map_congr_left ?_
  rintro ⟨p, wt⟩ _
  have h1 : ∀ v : Fin n → K, (List.finRange n).map (fun i => (i, v i)) = forEach v := fun _ => rfl
  simp only [h1, tested_forEach]
  have hv : (∑ i, x i * fe.phi p i) = value fe x p := rfl
  rw [hv]
  have : ∀ i, w i * (value fe x p * fe.phi p i * (sc * wt * geo.integrationElement p)) =
      w i * ((value fe x p * (sc * wt * geo.integrationElement p)) * fe.phi p i) := fun i => by ring
  simp only [this, sum_value]
  ring

variable [DecidableEq I]

theorem form_mass (o : Int) (sc : K) (pb : Transient K P Q I d n) (x w : I → K) :
    form ((List.finRange N).map (massPart o sc pb)) x w = massForm o sc pb x w := by
  unfold form massForm
  rw [List.map_map, ← List.sum_ofFn, List.ofFn_eq_map]
  congr 1
  refine List.map_congr_left fun c _ => ?_
  rw [← mass_tested]
  exact ofCalls_tested _ _ _ _ x w

theorem mass_affine (o : Int) (sc : K) (pb : Transient K P Q I d n) :
    ∀ p ∈ (List.finRange N).map (massPart o sc pb), Affine p (p.jacobian fun _ => 0) (p.residual fun _ => 0) := by
  intro p hp
  obtain ⟨c, -, rfl⟩ := List.mem_map.mp hp
  exact ofCalls_affine _ _ _ _ (mass_linear o sc (pb.geo c) (pb.lfs c)).affine

theorem mass_fits (o : Int) (sc : K) (t : Trafo I K) (pb : Transient K P Q I d n) (τ : K) (h : ConstrainedInCells t (pb.at τ)) :
    PatternFits t pb.pattern ((List.finRange N).map (massPart o sc pb)) where
  valid := pattern_valid (pb.at τ)
  diagonal := (pattern_fits 0 t (pb.at τ) h).diagonal
  covered x p hp i hi j hj _ := by
    obtain ⟨p, hm, rfl⟩ := List.mem_map.mp hp
    obtain ⟨c, -, rfl⟩ := List.mem_map.mp hm
    obtain ⟨q, hq, l, hl, h1, h2⟩ := linked (pb.at τ) c ⟨i, hi⟩ ⟨j, hj⟩
    refine ⟨q, hq, l, hl, ?_, ?_⟩
    · rw [h1]
      change _ = if h : i < n c then pb.dof c _ else _
      rw [dif_pos (show i < n c from hi)]
      rfl
    · rw [h2]
      change _ = if h : j < n c then pb.dof c _ else _
      rw [dif_pos (show j < n c from hj)]
      rfl

theorem scheme_form (add o : Int) (sc : K) (pb : Transient K P Q I d n) (S : Setting K) (x : Nat → I → K) (w : I → K) :
    stageForm S (pb.spatial add) (pb.temporal o sc) pb.trace x w = schemeForm add o sc pb S x w := by
  unfold stageForm schemeForm
  simp only [parts_spatial, parts_temporal, form_weak, form_mass]

end fem

section fem2
open LocalOp LocalOp.Spec LocalOp.FEM Matrix FEMMesh
variable {K P Q I : Type} [Field K] [LinearOrder K] [IsStrictOrderedRing K] [Inhabited I] [DecidableEq I] {d N : Nat} {n : Fin N → Nat}

theorem mass_nonneg (add o : Int) (sc : K) (t : Trafo I K) (pb : Transient K P Q I d n) (h : Parabolic add o sc t pb) (w : I → K) :
    0 ≤ massForm o sc pb w w := by
  unfold massForm
  refine Finset.sum_nonneg fun c _ => integrate_nonneg _ _ (h.massWeights c) _ fun p _ => ?_
  rw [mul_assoc]
  exact mul_nonneg h.nonneg (mul_self_nonneg _)

theorem mass_sub_left (o : Int) (sc : K) (pb : Transient K P Q I d n) (x y w : I → K) :
    massForm o sc pb (fun k => x k - y k) w = massForm o sc pb x w - massForm o sc pb y w := by
  unfold massForm
  rw [← Finset.sum_sub_distrib]
  refine Finset.sum_congr rfl fun c _ => ?_
  rw [DGMesh.integrate_sub']
  refine integrate_congr _ _ _ _ fun p _ => ?_
  unfold value
  simp only [sub_mul, Finset.sum_sub_distrib]
  ring

theorem mass_symm (o : Int) (sc : K) (pb : Transient K P Q I d n) (x w : I → K) : massForm o sc pb x w = massForm o sc pb w x := by
  unfold massForm
  refine Finset.sum_congr rfl fun c _ => integrate_congr _ _ _ _ fun p _ => ?_
  ring

theorem mass_zero (o : Int) (sc : K) (pb : Transient K P Q I d n) (w : I → K) : massForm o sc pb (fun _ => 0) w = 0 := by
  have := mass_sub_left o sc pb w w w
  simpa using this

theorem mass_smul (o : Int) (sc : K) (pb : Transient K P Q I d n) (a : K) (x w : I → K) :
    massForm o sc pb (fun k => a * x k) w = a * massForm o sc pb x w := by
  rw [← form_mass, ← form_mass, form_affine _ _ _ (mass_affine o sc pb), form_affine _ _ _ (mass_affine o sc pb)]
  have hb : ∀ w, pair ((List.finRange N).map (massPart o sc pb)) w (fun p => p.residual fun _ => 0) = 0 := by
    intro w
    have h0 := mass_zero o sc pb w
    rw [← form_mass] at h0
    exact h0
  rw [hb, zero_add, zero_add, ← pair_smul_right]
  refine pair_congr _ _ _ _ _ (fun _ => rfl) fun p _ i _ => ?_
  unfold localProduct
  rw [← List.sum_map_mul_left]
  congr 1
  exact List.map_congr_left fun j _ => by ring

theorem stage_regular (add o : Int) (sc : K) (t : Trafo I K) (pb : Transient K P Q I d n) (h : Parabolic add o sc t pb) (τ f1 b : K) (h1 : 0 < f1)
    (hb : 0 ≤ b) (y : I → K) (hy : Homogeneous t y)
    (hw : ∀ w, Homogeneous t w → f1 * bilinear ((List.finRange N).map (massPart o sc pb)) y w + b * bilinear (meshParts add (pb.at τ)) y w = 0) :
    ∀ k, y k = 0 := by
  have e := hw y hy
  have hc := coercive add t (pb.at τ) (h.dissipative τ) (h.incompressible τ) y hy
  have he := energy_nonneg add (pb.at τ) (h.dissipative τ) y
  have hm := mass_nonneg add o sc t pb h y
  have hbm : bilinear ((List.finRange N).map (massPart o sc pb)) y y = massForm o sc pb y y := by
    unfold ConstrainedSolve.bilinear
    rw [form_mass, form_mass, mass_zero, sub_zero]
  rw [hbm] at e
  refine h.definite y hy (le_antisymm ?_ hm)
  have h2 := mul_nonneg hb (he.trans hc)
  by_contra hpos
  have h3 := mul_pos h1 (not_le.mp hpos)
  linarith

theorem factors_pos (mode : OneStep.DTMode) (dt : K) (h : 0 < dt) : 0 < (factors mode dt).1 ∧ 0 < (factors mode dt).2 := by
  cases mode <;> simp [factors, h]

end fem2

end Verif.TransientSolve
