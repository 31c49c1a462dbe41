import Verif.Spec.ConvectionDiffusion
import Verif.Proofs.LocalOperator
import Mathlib.Algebra.Order.Field.Basic
import Mathlib.Tactic.FieldSimp
import Mathlib.Tactic.FinCases
/-
Totals of the contributions of the convection-diffusion operators.
-/
namespace Verif.LocalOp
open Spec Matrix

section
variable {K : Type} [Field K] {d n : Nat}

theorem dot_sum_smul (v : Fin d → K) (x : Fin n → K) (w : Fin n → Fin d → K) :
    v ⬝ᵥ (∑ i, x i • w i) = ∑ i, (v ⬝ᵥ w i) * x i := by
  rw [dotProduct_sum]
  refine Finset.sum_congr rfl fun i _ => ?_
  rw [dotProduct_smul, smul_eq_mul, mul_comm]

theorem mulVec_sum_smul (A : Matrix (Fin d) (Fin d) K) (x : Fin n → K) (w : Fin n → Fin d → K) (v : Fin d → K) :
    (A *ᵥ ∑ i, x i • w i) ⬝ᵥ v = ∑ i, ((A *ᵥ w i) ⬝ᵥ v) * x i := by
  rw [dotProduct_comm, Matrix.dotProduct_mulVec, dot_sum_smul]
  refine Finset.sum_congr rfl fun i _ => ?_
  rw [← Matrix.dotProduct_mulVec, dotProduct_comm]

theorem sum_sum_type {ns nn : Nat} (f : Fin ns ⊕ Fin nn → K) : ∑ j, f j = ∑ j, f (.inl j) + ∑ j, f (.inr j) :=
  Fintype.sum_sum_type f
end

section
variable {K P Q : Type} [Field K] [LinearOrder K] {d n m : Nat}

/-- Summation over the trial functions with a common pattern of the four occurring terms. -/
theorem sum_pattern (x phi a : Fin n → K) (B c p fac : K) :
    ∑ j, ((a j - phi j * B + c * phi j * p) * fac) * x j
      = ((∑ j, a j * x j) - (∑ j, x j * phi j) * B + c * (∑ j, x j * phi j) * p) * fac := by
  have : ∀ j, ((a j - phi j * B + c * phi j * p) * fac) * x j
      = fac * (a j * x j) - (B * fac) * (x j * phi j) + (c * p * fac) * (x j * phi j) := fun j => by ring
  simp only [this, Finset.sum_add_distrib, Finset.sum_sub_distrib, ← Finset.mul_sum]
  ring

theorem fem_volume (intorderadd : Int) (geo : CellGeo K P d) (par : CellParam K P d) (lfsu : Basis K P d n) :
    LinearPlus (fun x => total (FEM.alphaVolume intorderadd geo par lfsu x))
      (total (FEM.jacobianVolume intorderadd geo par lfsu))
      (fun i => ((geo.quadratureRule (intorderadd + 2 * lfsu.order)).map fun q =>
        -(par.f q.1 * lfsu.phi q.1 i * (q.2 * geo.integrationElement q.1))).sum) := by
  unfold FEM.alphaVolume FEM.jacobianVolume
  refine linearPlus_flatMap _ _ _ _ ?_
  rintro ⟨ip, w⟩ _ x i
  simp only [total_forEach, applyMatrix, total_forEach₂, sum_pattern, mulVec_sum_smul]
  ring

theorem dg_volume (op : DG.Op K) (geo : CellGeo K P d) (par : CellParam K P d) (lfs : Basis K P d n) :
    LinearPlus (fun x => total (DG.alphaVolume op geo par lfs lfs x))
      (total (DG.jacobianVolume op geo par lfs lfs)) (fun _ => 0) := by
  unfold DG.alphaVolume DG.jacobianVolume
  refine linearPlus_flatMap_zero _ _ _ ?_
  rintro ⟨ip, w⟩ _ x i
  simp only [total_forEach, applyMatrix, total_forEach₂, sum_pattern, mulVec_sum_smul]
  ring


theorem sum_lin (x phi a : Fin n → K) (α β : K) (f : Fin n → K) (h : ∀ j, f j = α * phi j + β * a j) :
    ∑ j, f j * x j = α * (∑ j, x j * phi j) + β * (∑ j, a j * x j) := by
  simp only [h, Finset.mul_sum, ← Finset.sum_add_distrib]
  exact Finset.sum_congr rfl fun j _ => by ring

theorem fem_boundary (intorderadd : Int) (geo : FaceGeo K P Q d) (par : CellParam K P d) (fpar : FaceParam K Q)
    (lfsu : Basis K P d n) (h : fpar.bctype geo.center ≠ .none) :
    IsAffineWith (fun x => total (FEM.alphaBoundary intorderadd geo par fpar lfsu x))
      (total (FEM.jacobianBoundary intorderadd geo par fpar lfsu)) := by
  unfold FEM.alphaBoundary FEM.jacobianBoundary
  cases hb : fpar.bctype geo.center with
  | dirichlet => simpa using linearPlus_nil.affine
  | neumann =>
    simp only [reduceCtorEq, if_false, if_true, List.append_nil]
    intro x z i
    simp [applyMatrix, total_nil]
  | none => exact absurd hb h
  | outflow =>
    simp only [reduceCtorEq, if_false, if_true, List.nil_append]
    refine (linearPlus_flatMap _ _ _ (fun q i =>
      fpar.o q.1 * lfsu.phi (geo.inInside q.1) i * (q.2 * geo.integrationElement q.1)) ?_).affine
    rintro ⟨ip, w⟩ _ x i
    simp only [total_forEach, applyMatrix, total_forEach₂]
    rw [sum_lin x (lfsu.phi (geo.inInside ip)) (fun _ => 0)
      ((par.b (geo.inInside ip) ⬝ᵥ geo.unitOuterNormal ip) * lfsu.phi (geo.inInside ip) i * (w * geo.integrationElement ip)) 0
      _ (fun j => by ring)]
    ring

end

section
variable {K : Type} [Field K] {ι κ : Type} [DecidableEq ι] [DecidableEq κ]

theorem total_inside_inl (l : Calls ι K) (i : ι) : total (DG.inside (κ := κ) l) (.inl i) = total l i :=
  total_map_inj Sum.inl Sum.inl_injective l i
theorem total_inside_inr (l : Calls ι K) (k : κ) : total (DG.inside (κ := κ) l) (.inr k) = 0 :=
  total_map_ne Sum.inl l _ fun i => by simp
theorem total_outside_inr (l : Calls κ K) (k : κ) : total (DG.outside (ι := ι) l) (.inr k) = total l k :=
  total_map_inj Sum.inr Sum.inr_injective l k
theorem total_outside_inl (l : Calls κ K) (i : ι) : total (DG.outside (ι := ι) l) (.inl i) = 0 :=
  total_map_ne Sum.inr l _ fun i => by simp

theorem total_blockSS (l : Calls (ι × ι) K) (p q : ι ⊕ κ) :
    total (DG.blockSS l) (p, q) = match p, q with | .inl i, .inl j => total l (i, j) | _, _ => 0 := by
  cases p <;> cases q
  · exact total_map_inj (fun c : ι × ι => ((.inl c.1, .inl c.2) : (ι ⊕ κ) × (ι ⊕ κ))) (fun a b h => by simp_all [Prod.ext_iff]) l (_, _)
  all_goals exact total_map_ne (fun c : ι × ι => ((.inl c.1, .inl c.2) : (ι ⊕ κ) × (ι ⊕ κ))) l _ (by simp)
theorem total_blockSN (l : Calls (ι × κ) K) (p q : ι ⊕ κ) :
    total (DG.blockSN l) (p, q) = match p, q with | .inl i, .inr j => total l (i, j) | _, _ => 0 := by
  cases p <;> cases q
  case inl.inr => exact total_map_inj (fun c : ι × κ => ((.inl c.1, .inr c.2) : (ι ⊕ κ) × (ι ⊕ κ))) (fun a b h => by simp_all [Prod.ext_iff]) l (_, _)
  all_goals exact total_map_ne (fun c : ι × κ => ((.inl c.1, .inr c.2) : (ι ⊕ κ) × (ι ⊕ κ))) l _ (by simp)
theorem total_blockNS (l : Calls (κ × ι) K) (p q : ι ⊕ κ) :
    total (DG.blockNS l) (p, q) = match p, q with | .inr i, .inl j => total l (i, j) | _, _ => 0 := by
  cases p <;> cases q
  case inr.inl => exact total_map_inj (fun c : κ × ι => ((.inr c.1, .inl c.2) : (ι ⊕ κ) × (ι ⊕ κ))) (fun a b h => by simp_all [Prod.ext_iff]) l (_, _)
  all_goals exact total_map_ne (fun c : κ × ι => ((.inr c.1, .inl c.2) : (ι ⊕ κ) × (ι ⊕ κ))) l _ (by simp)
theorem total_blockNN (l : Calls (κ × κ) K) (p q : ι ⊕ κ) :
    total (DG.blockNN l) (p, q) = match p, q with | .inr i, .inr j => total l (i, j) | _, _ => 0 := by
  cases p <;> cases q
  case inr.inr => exact total_map_inj (fun c : κ × κ => ((.inr c.1, .inr c.2) : (ι ⊕ κ) × (ι ⊕ κ))) (fun a b h => by simp_all [Prod.ext_iff]) l (_, _)
  all_goals exact total_map_ne (fun c : κ × κ => ((.inr c.1, .inr c.2) : (ι ⊕ κ) × (ι ⊕ κ))) l _ (by simp)

theorem total_forEach₂List {m n : Nat} (v : Fin m → Fin n → List K) (i : Fin m) (j : Fin n) :
    total (DG.forEach₂List v) (i, j) = (v i j).sum := by
  unfold DG.forEach₂List
  rw [total_flatMap]
  have h1 : ∀ (i' : Fin m) (j' : Fin n), total ((v i' j').map fun a => ((i', j'), a)) (i, j)
      = if j' = j then (if i' = i then (v i' j').sum else 0) else 0 := by
    intro i' j'
    induction v i' j' with
    | nil => simp [total_nil]
    | cons a l ih =>
      simp only [List.map_cons, total_cons, ih, Prod.mk.injEq, List.sum_cons]
      by_cases h : i' = i <;> by_cases h' : j' = j <;> simp [h, h']
  simp only [total_flatMap, h1]
  have h2 : ∀ j' : Fin n, ((List.finRange m).map fun i' => if j' = j then (if i' = i then (v i' j').sum else 0) else 0).sum
      = if j' = j then (v i j').sum else 0 := by
    intro j'
    by_cases h : j' = j
    · simp only [h, if_true]
      rw [sum_map_ite_mem _ (List.nodup_finRange m)]; simp
    · simp [h]
  simp only [h2]
  rw [sum_map_ite_mem _ (List.nodup_finRange n)]; simp

end

section
variable {K P Q : Type} [Field K] [LinearOrder K] {d n m ns nn : Nat}

theorem dg_skeleton (op : DG.Op K) (geo : FaceGeo K P Q d) (geoIn geoOut : CellGeo K P d)
    (parIn parOut : CellParam K P d) (lfsS : Basis K P d ns) (lfsN : Basis K P d nn) :
    LinearPlus (fun x => total (DG.alphaSkeleton op geo geoIn geoOut parIn parOut lfsS lfsN lfsS lfsN x))
      (total (DG.jacobianSkeleton op geo geoIn geoOut parIn parOut lfsS lfsN lfsS lfsN)) (fun _ => 0) := by
  unfold DG.alphaSkeleton DG.jacobianSkeleton
  refine linearPlus_flatMap_zero _ _ _ ?_
  rintro ⟨ip, w⟩ _ x i
  dsimp only
  generalize DG.couplingAt op geo geoIn geoOut parIn parOut (max lfsS.order lfsN.order) ip = cp
  generalize parIn.b (geo.inInside ip) ⬝ᵥ geo.unitOuterNormal ip = nf
  generalize (DG.upwind nf).1 = upS
  generalize (DG.upwind nf).2 = upN
  generalize w * geo.integrationElement ip = fac
  generalize op.theta = θ
  rcases i with i | i
  · simp only [total_append, total_inside_inl, total_outside_inl, total_forEach, applyMatrix, sum_sum_type, total_blockSS,
      total_blockSN, total_blockNS, total_blockNN, total_forEach₂List, List.sum_cons, List.sum_nil, add_zero, zero_add]
    rw [sum_lin (fun j => x (.inl j)) (lfsS.phi (geo.inInside ip))
      (fun j => cp.AnS ⬝ᵥ (geoIn.jacobianInverseTransposed (geo.inInside ip) *ᵥ lfsS.js (geo.inInside ip) j))
      (upS * nf * fac * lfsS.phi (geo.inInside ip) i + fac * θ * cp.omegaS *
        (cp.AnS ⬝ᵥ (geoIn.jacobianInverseTransposed (geo.inInside ip) *ᵥ lfsS.js (geo.inInside ip) i))
        + cp.penalty * fac * lfsS.phi (geo.inInside ip) i)
      (-(cp.omegaS * fac * lfsS.phi (geo.inInside ip) i)) _ (fun j => by ring)]
    rw [sum_lin (fun j => x (.inr j)) (lfsN.phi (geo.inOutside ip))
      (fun j => cp.AnN ⬝ᵥ (geoOut.jacobianInverseTransposed (geo.inOutside ip) *ᵥ lfsN.js (geo.inOutside ip) j))
      (upN * nf * fac * lfsS.phi (geo.inInside ip) i - fac * θ * cp.omegaS *
        (cp.AnS ⬝ᵥ (geoIn.jacobianInverseTransposed (geo.inInside ip) *ᵥ lfsS.js (geo.inInside ip) i))
        - cp.penalty * fac * lfsS.phi (geo.inInside ip) i)
      (-(cp.omegaN * fac * lfsS.phi (geo.inInside ip) i)) _ (fun j => by ring)]
    rw [dot_sum_smul, dot_sum_smul]
    ring
  · simp only [total_append, total_inside_inr, total_outside_inr, total_forEach, applyMatrix, sum_sum_type, total_blockSS,
      total_blockSN, total_blockNS, total_blockNN, total_forEach₂List, List.sum_cons, List.sum_nil, add_zero, zero_add]
    rw [sum_lin (fun j => x (.inl j)) (lfsS.phi (geo.inInside ip))
      (fun j => cp.AnS ⬝ᵥ (geoIn.jacobianInverseTransposed (geo.inInside ip) *ᵥ lfsS.js (geo.inInside ip) j))
      (-(upS * nf * fac * lfsN.phi (geo.inOutside ip) i) + fac * θ * cp.omegaN *
        (cp.AnN ⬝ᵥ (geoOut.jacobianInverseTransposed (geo.inOutside ip) *ᵥ lfsN.js (geo.inOutside ip) i))
        - cp.penalty * fac * lfsN.phi (geo.inOutside ip) i)
      ((cp.omegaS * fac * lfsN.phi (geo.inOutside ip) i)) _ (fun j => by ring)]
    rw [sum_lin (fun j => x (.inr j)) (lfsN.phi (geo.inOutside ip))
      (fun j => cp.AnN ⬝ᵥ (geoOut.jacobianInverseTransposed (geo.inOutside ip) *ᵥ lfsN.js (geo.inOutside ip) j))
      (-(upN * nf * fac * lfsN.phi (geo.inOutside ip) i) - fac * θ * cp.omegaN *
        (cp.AnN ⬝ᵥ (geoOut.jacobianInverseTransposed (geo.inOutside ip) *ᵥ lfsN.js (geo.inOutside ip) i))
        + cp.penalty * fac * lfsN.phi (geo.inOutside ip) i)
      ((cp.omegaN * fac * lfsN.phi (geo.inOutside ip) i)) _ (fun j => by ring)]
    rw [dot_sum_smul, dot_sum_smul]
    ring

end

section
variable {K P Q : Type} [Field K] [LinearOrder K] {d n m ns nn : Nat}

theorem loop_some {α ι : Type} (body : α → Option (Calls ι K)) (f : α → Calls ι K) (l : List α)
    (h : ∀ a ∈ l, body a = some (f a)) : DG.loop body l = some (l.flatMap f) := by
  induction l with
  | nil => rfl
  | cons a l ih =>
    simp only [DG.loop, h a (by simp), ih fun b hb => h b (by simp [hb]), List.flatMap_cons]
    rfl

theorem loop_none {α ι : Type} (body : α → Option (Calls ι K)) (l : List α)
    (h : ∃ a ∈ l, body a = none) : DG.loop body l = none := by
  induction l with
  | nil => simp at h
  | cons a l ih =>
    obtain ⟨b, hb, hn⟩ := h
    rcases List.mem_cons.mp hb with rfl | hb
    · simp [DG.loop, hn]
    · simp only [DG.loop, ih ⟨b, hb, hn⟩]
      cases body a <;> rfl

theorem residualBoundaryPoint_none (op : DG.Op K) (geo : FaceGeo K P Q d) (geoIn : CellGeo K P d) (par : CellParam K P d)
    (fpar : FaceParam K Q) (lfsu : Basis K P d n) (lfsv : Basis K P d m) (x : Fin n → K) (ja : Bool) (ip : Q) (w : K) :
    DG.residualBoundaryPoint op geo geoIn par fpar lfsu lfsv x ja ip w = none ↔ OutflowOnInflow geo par fpar ip := by
  unfold DG.residualBoundaryPoint OutflowOnInflow
  cases h : fpar.bctype ip <;> simp

theorem jacobianBoundaryPoint_none (op : DG.Op K) (geo : FaceGeo K P Q d) (geoIn : CellGeo K P d) (par : CellParam K P d)
    (fpar : FaceParam K Q) (lfsu : Basis K P d n) (ip : Q) (w : K) :
    DG.jacobianBoundaryPoint op geo geoIn par fpar lfsu ip w = none ↔ OutflowOnInflow geo par fpar ip := by
  unfold DG.jacobianBoundaryPoint OutflowOnInflow
  cases h : fpar.bctype ip <;> simp

theorem dg_boundary_point (op : DG.Op K) (geo : FaceGeo K P Q d) (geoIn : CellGeo K P d) (par : CellParam K P d)
    (fpar : FaceParam K Q) (lfs : Basis K P d n) (ja : Bool) (ip : Q) (w : K) (h : ¬ OutflowOnInflow geo par fpar ip) :
    LinearPlus (fun x => total ((DG.residualBoundaryPoint op geo geoIn par fpar lfs lfs x ja ip w).getD []))
      (total ((DG.jacobianBoundaryPoint op geo geoIn par fpar lfs ip w).getD []))
      (if ja then fun _ => 0 else
        total ((DG.residualBoundaryPoint op geo geoIn par fpar lfs lfs (fun _ => 0) ja ip w).getD [])) := by
  unfold DG.residualBoundaryPoint DG.jacobianBoundaryPoint
  unfold OutflowOnInflow at h
  dsimp only
  generalize (DG.boundaryCouplingAt op geo geoIn par lfs.order ip).1 = An
  generalize (DG.boundaryCouplingAt op geo geoIn par lfs.order ip).2 = pen
  generalize w * geo.integrationElement ip = fac
  generalize par.b (geo.inInside ip) ⬝ᵥ geo.unitOuterNormal ip = nf at h ⊢
  generalize op.theta = θ
  cases hb : fpar.bctype ip with
  | none =>
    intro x i
    cases ja <;> simp [total_nil, applyMatrix]
  | neumann =>
    intro x i
    cases ja <;> simp [total_nil, applyMatrix]
  | outflow =>
    have h' : ¬ nf < -(1 / 10 ^ 30) := fun hn => h ⟨hb, hn⟩
    intro x i
    simp only [h', if_false, Option.getD_some, total_append, total_forEach, applyMatrix, total_forEach₂]
    rw [sum_lin x (lfs.phi (geo.inInside ip)) (fun _ => 0) (nf * fac * lfs.phi (geo.inInside ip) i) 0 _
      (fun j => by ring)]
    cases ja <;> simp [total_append, total_forEach, total_nil] <;> ring
  | dirichlet =>
    intro x i
    have hup : (DG.upwind nf).1 = if nf ≥ 0 then (1 : K) else 0 := by unfold DG.upwind; split <;> rfl
    simp only [Option.getD_some, total_append, total_forEach, applyMatrix, total_forEach₂, ← hup]
    rw [sum_lin x (lfs.phi (geo.inInside ip))
      (fun j => An ⬝ᵥ (geoIn.jacobianInverseTransposed (geo.inInside ip) *ᵥ lfs.js (geo.inInside ip) j))
      ((DG.upwind nf).1 * nf * fac * lfs.phi (geo.inInside ip) i
        + fac * θ * (An ⬝ᵥ (geoIn.jacobianInverseTransposed (geo.inInside ip) *ᵥ lfs.js (geo.inInside ip) i))
        + pen * lfs.phi (geo.inInside ip) i * fac)
      (- (fac * lfs.phi (geo.inInside ip) i)) _
      (fun j => by ring)]
    rw [dot_sum_smul]
    cases ja <;> simp [total_append, total_forEach, total_nil] <;> ring

end

end Verif.LocalOp
