import Verif.Spec.DGSolve
import Verif.Proofs.TransientSolve
import Verif.Props.DGMesh
import Verif.Props.ConvectionDiffusion
import Verif.Proofs.ExplicitBoundary
/-
Helper lemmas for C242.
-/
set_option linter.unusedSectionVars false
namespace Verif.DGSolve
open ConstrainedSolve Constraints Assembly TransientSolve
open OneStep (Kind Op Setting St Scheme DTMode OSM PDERes NoTinyCoefficients factors)

section step
variable {I K : Type} [DecidableEq I] [Fintype I] [Field K] [LinearOrder K] [IsStrictOrderedRing K]

/-- A step of which all stages can be solved. -/
theorem step {σ T : Type} [Add T] [Zero T] (t : Trafo I K) (h : Admissible t) (symmetric : Bool) (ci0 : Nat → I) (pattern : List (PatternPart I))
    (L0 L1 : LocalParts I K) (trace : List (Kind × Nat)) (S : Scheme K) (time dt : K) (mode : DTMode) (st0 : St K (I → K) (I → K))
    (solve : Assembly.Matrix I K → (I → K) → I → K) (g : K → I → K) (res : PDERes T) (m : OSM T) (mem : Nat → I → K) (st : σ)
    (hstage : ∀ r, 1 ≤ r → r ≤ S.s → ∀ (x : Nat → I → K) (guess : I → K),
      ∃ x', stageSolve t symmetric ci0 pattern ⟨S, time, dt, mode, r⟩ L0 L1 trace st0 solve ((List.range r).map x) guess = some x' ∧
        (Conforming t x' ∧ (∀ k, t.Dirichlet k → x' k = guess k) ∧
          ∀ w, Homogeneous t w → stageForm ⟨S, time, dt, mode, r⟩ L0 L1 trace (OneStep.upd x r x') w = 0) ∧
        ∀ y, Conforming t y → (∀ k, t.Dirichlet k → y k = guess k) →
          (∀ w, Homogeneous t w → stageForm ⟨S, time, dt, mode, r⟩ L0 L1 trace (OneStep.upd x r y) w = 0) → y = x') :
    let out := m.apply (stageEnv t symmetric ci0 pattern S time dt mode L0 L1 trace st0 solve g res) mem st
    let Good := fun (x : Nat → I → K) => ∀ r, 1 ≤ r → r ≤ S.s → Conforming t (x r) ∧ (∀ k, t.Dirichlet k → x r k = g (time + S.d r * dt) k) ∧
      ∀ w, Homogeneous t w → stageForm ⟨S, time, dt, mode, r⟩ L0 L1 trace x w = 0
    out.1 = .success ∧ out.2.1.mem 0 = mem 0 ∧ Good out.2.1.mem ∧ ∀ y, y 0 = mem 0 → Good y → ∀ r, r ≤ S.s → y r = out.2.1.mem r := by
  intro out Good
  have hguess : ∀ r (mem : Nat → I → K) k, t.Dirichlet k →
      OneStep.initInterpolate (fun k => (find? k t.rows).isSome) (fun r => g (time + S.d r * dt)) S.s r mem r k = g (time + S.d r * dt) k := by
    intro r mem k hk
    have hf : (find? k t.rows).isSome = true := by rw [(find?_iff_mem k [] _ h.keys).mpr hk]; rfl
    unfold OneStep.initInterpolate OneStep.gridInterpolate
    simp [OneStep.upd, OneStep.copyFree, hf]
  set E : OneStep.Env σ (I → K) T := stageEnv t symmetric ci0 pattern S time dt mode L0 L1 trace st0 solve g res with hE
  obtain ⟨R', e1, e2, e3⟩ := loop_all E
    (fun _ _ => rfl) (fun r mem i hi => OneStep.initInterpolate_other (fun k => (find? k t.rows).isSome) (fun r => g (time + S.d r * dt)) S.s r mem i hi)
    (fun r x => Conforming t (x r) ∧ (∀ k, t.Dirichlet k → x r k = g (time + S.d r * dt) k) ∧
      ∀ w, Homogeneous t w → stageForm ⟨S, time, dt, mode, r⟩ L0 L1 trace x w = 0)
    (by
      rintro r x y hxy ⟨h1, h2, h3⟩
      rw [← hxy r (le_refl r)]
      refine ⟨h1, h2, fun w hw => ?_⟩
      rw [← stage_congr _ _ _ _ x y hxy]
      exact h3 w hw)
    (by
      intro st r x h1 h2
      obtain ⟨x', a1, ⟨a2, a3, a4⟩, -⟩ := hstage r h1 h2 x
        (OneStep.initInterpolate (fun k => (find? k t.rows).isSome) (fun r => g (time + S.d r * dt)) S.s r x r)
      have e : E.solve st r ((List.range r).map x) (E.initStage r x r) = (st, true, x', res) := by
        simp only [hE, stageEnv, a1]
      rw [e]
      have hu : OneStep.upd x r x' r = x' := by simp [OneStep.upd]
      simp only [hu]
      exact ⟨trivial, a2, fun k hk => (a3 k hk).trans (hguess r x k hk), a4⟩)
    S.s 1 ⟨mem, st, OneStep.Stats.zero, [.preStep]⟩ (le_refl 1) (by simp [hE, stageEnv]; omega) (fun q _ hq => by omega)
  have hs : E.s = S.s := rfl
  have hout1 : out.1 = .success := by
    simp only [out, OneStep.OSM.apply]
    rw [hs, e1]
  have hout2 : out.2.1.mem = R'.mem := by
    simp only [out, OneStep.OSM.apply]
    rw [hs, e1]
  rw [hout2]
  refine ⟨hout1, e3 0 (by omega), fun r h1 h2 => e2 r h1 h2, fun y hy0 hy r => ?_⟩
  induction r using Nat.strong_induction_on with
  | _ r ih =>
    intro hr
    rcases Nat.eq_zero_or_pos r with rfl | hr0
    · rw [hy0, e3 0 (by omega)]
    · obtain ⟨x', -, -, a4⟩ := hstage r hr0 hr y (g (time + S.d r * dt))
      obtain ⟨b1, b2, b3⟩ := hy r hr0 hr
      obtain ⟨c1, c2, c3⟩ := e2 r hr0 hr
      rw [a4 (y r) b1 b2 (fun w hw => ?_), ← a4 (R'.mem r) c1 c2 (fun w hw => ?_)]
      · rw [stage_congr _ _ _ _ _ R'.mem _]
        · exact c3 w hw
        · intro s hs
          unfold OneStep.upd
          split
          · rename_i hsr
            rw [hsr]
          · rename_i hsr
            have hs' : s ≤ r := hs
            exact ih s (by omega) (by omega)
      · rw [stage_congr _ _ _ _ _ y _]
        · exact b3 w hw
        · intro s hs
          unfold OneStep.upd
          split
          · rename_i hsr
            rw [hsr]
          · rfl

end step

section dg
open LocalOp LocalOp.Spec LocalOp.DG Matrix FEMMesh
variable {K P Q : Type} [Field K] [LinearOrder K] [IsStrictOrderedRing K] {d N : Nat} {n : Fin N → Nat}

theorem load_tested {n : Nat} (op : LocalOp.DG.Op K) (geo : CellGeo K P d) (par : CellParam K P d) (lfs : Basis K P d n) (w : Fin n → K) :
    tested (lambdaVolume op geo par lfs) w = -integrate geo (op.intorder lfs.order) fun p => par.f p * value lfs w p := by
  unfold lambdaVolume integrate
  dsimp only
  rw [tested_flatMap, List.sum_neg, List.map_map]
  congr 1
  refine List.map_congr_left ?_
  rintro ⟨p, wt⟩ _
  rw [tested_forEach]
  have : ∀ i, w i * (-par.f p * lfs.phi p i * (wt * geo.integrationElement p)) = w i * ((-(wt * geo.integrationElement p * par.f p)) * lfs.phi p i) :=
    fun i => by ring
  simp only [this, sum_value, Function.comp_apply]
  ring

theorem residual_tested (op : LocalOp.DG.Op K) (mesh : Mesh K P Q d n) (x w : MeshVec K n) (r : Calls ((c : Fin N) × Fin (n c)) K)
    (h : meshResidual op mesh x = some r) : tested r w = dgForm op mesh x w := by
  rw [DGMesh.mesh_tested op mesh x w r h]
  unfold dgForm
  simp only [load_tested, sub_eq_add_neg]

theorem residual_some (op : LocalOp.DG.Op K) (mesh : Mesh K P Q d n) (h : Accepts op mesh) (x : MeshVec K n) : ∃ r, meshResidual op mesh x = some r := by
  have hm : ∀ l : List (BoundaryFace K P Q d N), (∀ F ∈ l, F ∈ mesh.boundary) → ∃ b, (l.mapM fun F =>
      (alphaBoundary op F.geo (mesh.geo F.inside) (mesh.par F.inside) F.par (mesh.lfs F.inside) (mesh.lfs F.inside)
        fun i => x ⟨F.inside, i⟩).map (place F.inside)) = some b := by
    intro l
    induction l with
    | nil => intro _; exact ⟨[], rfl⟩
    | cons F l ih =>
      intro hl
      obtain ⟨b, hb⟩ := ih fun G hG => hl G (List.mem_cons_of_mem _ hG)
      obtain ⟨J, r, -, -, hr, -⟩ := C94_dg_boundary op F.geo (mesh.geo F.inside) (mesh.par F.inside) F.par (mesh.lfs F.inside)
        (h F (hl F List.mem_cons_self))
      refine ⟨place F.inside (r fun i => x ⟨F.inside, i⟩) :: b, ?_⟩
      rw [List.mapM_cons, hb, hr]
      rfl
  obtain ⟨b, hb⟩ := hm mesh.boundary fun _ h => h
  unfold meshResidual
  dsimp only
  rw [hb]
  exact ⟨_, rfl⟩

theorem not_throws (op : LocalOp.DG.Op K) (mesh : Mesh K P Q d n) (h : Accepts op mesh) (x : MeshVec K n) : throws op mesh x = false := by
  unfold throws
  rw [List.any_eq_false]
  intro F hF
  obtain ⟨J, r, -, hJ, hr, -⟩ := C94_dg_boundary op F.geo (mesh.geo F.inside) (mesh.par F.inside) F.par (mesh.lfs F.inside) (h F hF)
  rw [hJ, hr]
  simp

variable [Inhabited ((c : Fin N) × Fin (n c))]

theorem throws_iff (op : LocalOp.DG.Op K) (mesh : Mesh K P Q d n) (x : MeshVec K n) : throws op mesh x = true ↔ ¬ Accepts op mesh := by
  constructor
  · intro h h'
    rw [not_throws op mesh h' x] at h
    cases h
  · intro h
    unfold Accepts at h
    push Not at h
    obtain ⟨F, hF, q, hq, hO⟩ := h
    unfold throws
    rw [List.any_eq_true]
    have e := (C94_dg_outflow_on_inflow_is_rejected op F.geo (mesh.geo F.inside) (mesh.par F.inside) F.par (mesh.lfs F.inside)).1.mp ⟨q, hq, hO⟩
    exact ⟨F, hF, by rw [e]; simp⟩

theorem form_dg (op : LocalOp.DG.Op K) (mesh : Mesh K P Q d n) (h : Accepts op mesh) (x w : MeshVec K n) :
    form (DG.meshParts op mesh) x w = dgForm op mesh x w := by
  unfold DG.meshParts dgForm
  rw [form_append, form_append, form_append, Finset.sum_sub_distrib, sub_eq_add_neg, ← Finset.sum_neg_distrib]
  have hcells : ∀ (p : Fin N → Part ((c : Fin N) × Fin (n c)) K) (v : Fin N → K), (∀ c, form [p c] x w = v c) →
      form ((List.finRange N).map p) x w = ∑ c, v c := by
    intro p v hv
    unfold form
    rw [List.map_map, ← List.sum_ofFn, List.ofFn_eq_map]
    congr 1
    refine List.map_congr_left fun c _ => ?_
    rw [← hv c]
    simp [form]
  congr 1
  · congr 1
    · congr 1
      · refine hcells _ _ fun c => ?_
        unfold form
        rw [List.map_cons, List.map_nil, List.sum_cons, List.sum_nil, add_zero]
        refine (ofCalls_tested _ _ _ _ x w).trans ?_
        exact volume_form op (mesh.geo c) (mesh.par c) (mesh.lfs c) _ _
      · refine hcells _ _ fun c => ?_
        unfold form
        rw [List.map_cons, List.map_nil, List.sum_cons, List.sum_nil, add_zero]
        refine (ofCalls_tested _ _ _ _ x w).trans ?_
        exact load_tested op (mesh.geo c) (mesh.par c) (mesh.lfs c) _
    · unfold form
      rw [List.map_map]
      congr 1
      refine List.map_congr_left fun F _ => ?_
      refine (ofCalls_tested _ _ _ _ x w).trans ?_
      rw [skeleton_form]
      congr 1 <;> (funext i; cases i <;> rfl)
  · unfold form
    rw [List.map_map]
    congr 1
    refine List.map_congr_left fun F hF => ?_
    refine (ofCalls_tested _ _ _ _ x w).trans ?_
    obtain ⟨J, r, -, -, hr, -⟩ := C94_dg_boundary op F.geo (mesh.geo F.inside) (mesh.par F.inside) F.par (mesh.lfs F.inside) (h F hF)
    rw [hr, Option.getD_some]
    exact boundary_form op F.geo (mesh.geo F.inside) (mesh.par F.inside) F.par (mesh.lfs F.inside) _ _ _ (hr _)

theorem parts_affine (op : LocalOp.DG.Op K) (mesh : Mesh K P Q d n) (h : Accepts op mesh) :
    ∀ p ∈ DG.meshParts op mesh, Affine p (p.jacobian fun _ => 0) (p.residual fun _ => 0) := by
  intro p hp
  unfold DG.meshParts at hp
  rcases List.mem_append.mp hp with hp | hp
  · rcases List.mem_append.mp hp with hp | hp
    · rcases List.mem_append.mp hp with hp | hp
      · obtain ⟨c, -, rfl⟩ := List.mem_map.mp hp
        exact ofCalls_affine _ _ _ _ (C94_dg_volume op (mesh.geo c) (mesh.par c) (mesh.lfs c)).1
      · obtain ⟨c, -, rfl⟩ := List.mem_map.mp hp
        refine ofCalls_affine _ _ _ _ ?_
        intro x z i
        simp [applyMatrix, LocalOp.Spec.total]
    · obtain ⟨F, -, rfl⟩ := List.mem_map.mp hp
      exact ofCalls_affine _ _ _ _ (C94_dg_skeleton op F.geo _ _ _ _ _ _).1
  · obtain ⟨F, hF, rfl⟩ := List.mem_map.mp hp
    obtain ⟨J, r, -, hJ, hr, -, ha, -⟩ := C94_dg_boundary op F.geo (mesh.geo F.inside) (mesh.par F.inside) F.par (mesh.lfs F.inside) (h F hF)
    refine ofCalls_affine _ _ _ _ ?_
    simp only [hJ, hr, Option.getD_some]
    exact ha

theorem pattern_valid (mesh : Mesh K P Q d n) : ∀ q ∈ DG.meshPattern mesh, PatternPart.Valid q := by
  intro q hq l hl
  rcases List.mem_append.mp hq with hq | hq
  · obtain ⟨c, -, rfl⟩ := List.mem_map.mp hq
    simp only [fullVolumePattern, List.mem_flatMap, List.mem_map, List.mem_range] at hl
    obtain ⟨i, hi, j, hj, rfl⟩ := hl
    exact ⟨hi, hj⟩
  · obtain ⟨F, -, rfl⟩ := List.mem_map.mp hq
    simp only [skeletonPattern, List.mem_append, List.mem_flatMap, List.mem_map, List.mem_range] at hl ⊢
    rcases hl with ⟨i, hi, j, hj, rfl⟩ | ⟨i, hi, j, hj, rfl⟩
    · exact ⟨by omega, by omega⟩
    · exact ⟨by omega, by omega⟩

theorem linked_cell (mesh : Mesh K P Q d n) (c : Fin N) (i j : Fin (n c)) :
    ∃ q ∈ DG.meshPattern mesh, ∃ l ∈ q.links, q.v l.1 = ⟨c, i⟩ ∧ q.u l.2 = ⟨c, j⟩ := by
  refine ⟨_, List.mem_append_left _ (List.mem_map.mpr ⟨c, List.mem_finRange c, rfl⟩), (i, j), ?_, ?_, ?_⟩
  · simp only [fullVolumePattern, List.mem_flatMap, List.mem_map, List.mem_range]
    exact ⟨i, i.isLt, j, j.isLt, rfl⟩
  · simp [fullVolumePattern]
  · simp [fullVolumePattern]

theorem finSum_inl {a b : Nat} (i : Fin a) (h : (i : Nat) < a + b) : finSumFinEquiv.symm (⟨i, h⟩ : Fin (a + b)) = Sum.inl i := by
  rw [Equiv.symm_apply_eq]
  rfl

theorem finSum_inr {a b : Nat} (i : Fin b) (h : a + (i : Nat) < a + b) : finSumFinEquiv.symm (⟨a + i, h⟩ : Fin (a + b)) = Sum.inr i := by
  rw [Equiv.symm_apply_eq]
  rfl

theorem linked_face (mesh : Mesh K P Q d n) (F : Face K P Q d N) (hF : F ∈ mesh.inner) (i j : Fin (n F.inside) ⊕ Fin (n F.outside)) :
    ∃ q ∈ DG.meshPattern mesh, ∃ l ∈ q.links, q.v l.1 = Sum.elim (fun i => (⟨F.inside, i⟩ : (c : Fin N) × Fin (n c))) (fun i => ⟨F.outside, i⟩) i ∧
      q.u l.2 = Sum.elim (fun i => (⟨F.inside, i⟩ : (c : Fin N) × Fin (n c))) (fun i => ⟨F.outside, i⟩) j := by
  have hm : skeletonPattern F.inside F.outside ∈ DG.meshPattern mesh := List.mem_append_right _ (List.mem_map.mpr ⟨F, hF, rfl⟩)
  rcases i with i | i <;> rcases j with j | j
  · exact linked_cell mesh F.inside i j
  · refine ⟨_, hm, (i, n F.inside + j), ?_, ?_, ?_⟩
    · simp only [skeletonPattern, List.mem_append, List.mem_flatMap, List.mem_map, List.mem_range]
      exact Or.inl ⟨i, i.isLt, j, j.isLt, rfl⟩
    · have h : (i : Nat) < n F.inside + n F.outside := by omega
      simp only [skeletonPattern, dif_pos h, finSum_inl]
    · have h : n F.inside + (j : Nat) < n F.inside + n F.outside := by omega
      simp only [skeletonPattern, dif_pos h, finSum_inr]
  · refine ⟨_, hm, (n F.inside + i, j), ?_, ?_, ?_⟩
    · simp only [skeletonPattern, List.mem_append, List.mem_flatMap, List.mem_map, List.mem_range]
      exact Or.inr ⟨i, i.isLt, j, j.isLt, rfl⟩
    · have h : n F.inside + (i : Nat) < n F.inside + n F.outside := by omega
      simp only [skeletonPattern, dif_pos h, finSum_inr]
    · have h : (j : Nat) < n F.inside + n F.outside := by omega
      simp only [skeletonPattern, dif_pos h, finSum_inl]
  · exact linked_cell mesh F.outside i j

theorem covered_cell (mesh : Mesh K P Q d n) (c : Fin N) (i j : Nat) (hi : i < n c) (hj : j < n c) :
    ∃ q ∈ DG.meshPattern mesh, ∃ l ∈ q.links, q.v l.1 = (if h : i < n c then (⟨c, ⟨i, h⟩⟩ : (c : Fin N) × Fin (n c)) else default) ∧
      q.u l.2 = if h : j < n c then (⟨c, ⟨j, h⟩⟩ : (c : Fin N) × Fin (n c)) else default := by
  obtain ⟨q, hq, l, hl, h1, h2⟩ := linked_cell mesh c ⟨i, hi⟩ ⟨j, hj⟩
  exact ⟨q, hq, l, hl, by rw [h1, dif_pos hi], by rw [h2, dif_pos hj]⟩

theorem pattern_fits (op : LocalOp.DG.Op K) (mesh : Mesh K P Q d n) (t : Trafo ((c : Fin N) × Fin (n c)) K) :
    PatternFits t (DG.meshPattern mesh) (DG.meshParts op mesh) where
  valid := pattern_valid mesh
  covered x p hp i hi j hj _ := by
    obtain ⟨p, hm, rfl⟩ := List.mem_map.mp hp
    clear hp
    unfold DG.meshParts at hm
    rcases List.mem_append.mp hm with hm | hm
    · rcases List.mem_append.mp hm with hm | hm
      · rcases List.mem_append.mp hm with hm | hm
        · obtain ⟨c, -, rfl⟩ := List.mem_map.mp hm
          exact covered_cell mesh c i j hi hj
        · obtain ⟨c, -, rfl⟩ := List.mem_map.mp hm
          exact covered_cell mesh c i j hi hj
      · obtain ⟨F, hF, rfl⟩ := List.mem_map.mp hm
        have hi' : i < n F.inside + n F.outside := hi
        have hj' : j < n F.inside + n F.outside := hj
        obtain ⟨q, hq, l, hl, h1, h2⟩ := linked_face mesh F hF (finSumFinEquiv.symm ⟨i, hi'⟩) (finSumFinEquiv.symm ⟨j, hj'⟩)
        refine ⟨q, hq, l, hl, ?_, ?_⟩
        · rw [h1]
          change _ = if h : i < n F.inside + n F.outside then _ else _
          rw [dif_pos hi']
        · rw [h2]
          change _ = if h : j < n F.inside + n F.outside then _ else _
          rw [dif_pos hj']
    · obtain ⟨F, -, rfl⟩ := List.mem_map.mp hm
      exact covered_cell mesh F.inside i j hi hj
  diagonal k _ := by
    obtain ⟨c, i⟩ := k
    exact linked_cell mesh c i i

theorem parts_spatial (op : LocalOp.DG.Op K) (pb : Transient K P Q d n) (τ : K) : partsAt (pb.spatial op) pb.trace τ = DG.meshParts op (pb.at τ) := by
  unfold partsAt Transient.trace DG.meshParts
  rw [List.filterMap_append, List.filterMap_append, List.filterMap_append, List.filterMap_map, List.filterMap_map, List.filterMap_map, List.filterMap_map]
  congr 1
  · congr 1
    · congr 1
      · rw [← filterMap_range]
        rfl
      · rw [← filterMap_range]
        rfl
    · exact filterMap_getElem (skeletonPart op (pb.at τ)) pb.inner
  · have : (pb.at τ).boundary = pb.boundary.map fun F => F τ := rfl
    rw [this, List.map_map]
    exact filterMap_getElem (fun F => boundaryPart op (pb.at τ) (F τ)) pb.boundary

theorem parts_temporal (o : Int) (sc : K) (pb : Transient K P Q d n) (τ : K) :
    partsAt (pb.temporal o sc) pb.trace τ = (List.finRange N).map (DG.massPart o sc pb) := by
  unfold partsAt Transient.trace
  rw [List.filterMap_append, List.filterMap_append, List.filterMap_append, List.filterMap_map, List.filterMap_map, List.filterMap_map, List.filterMap_map]
  have h1 : ∀ l : List Nat, l.filterMap ((fun c : Kind × Nat => pb.temporal o sc c.1 c.2 τ) ∘ fun F => (Kind.vVolume, F)) = [] := by
    intro l
    rw [List.filterMap_eq_nil_iff]
    intro a _
    rfl
  have h2 : ∀ l : List Nat, l.filterMap ((fun c : Kind × Nat => pb.temporal o sc c.1 c.2 τ) ∘ fun F => (Kind.uvSkeleton, F)) = [] := by
    intro l
    rw [List.filterMap_eq_nil_iff]
    intro a _
    rfl
  have h3 : ∀ l : List Nat, l.filterMap ((fun c : Kind × Nat => pb.temporal o sc c.1 c.2 τ) ∘ fun F => (Kind.uvBoundary, F)) = [] := by
    intro l
    rw [List.filterMap_eq_nil_iff]
    intro a _
    rfl
  rw [h1, h2, h3, List.append_nil, List.append_nil, List.append_nil, ← filterMap_range]
  rfl

/-- The part of the problem that the mass operator sees, as a problem for conforming elements. -/
def asFEM (pb : Transient K P Q d n) : FEM.Transient K P Q ((c : Fin N) × Fin (n c)) d n where
  geo := pb.geo
  lfs := pb.lfs
  dof c i := ⟨c, i⟩
  par := pb.par
  boundary := pb.boundary

theorem mass_eq (o : Int) (sc : K) (pb : Transient K P Q d n) (x w : MeshVec K n) : massOf o sc pb x w = FEM.massForm o sc (asFEM pb) x w := rfl

theorem massPart_eq (o : Int) (sc : K) (pb : Transient K P Q d n) : DG.massPart o sc pb = FEM.massPart o sc (asFEM pb) := rfl

theorem mass_fits (o : Int) (sc : K) (t : Trafo ((c : Fin N) × Fin (n c)) K) (pb : Transient K P Q d n) :
    PatternFits t pb.pattern ((List.finRange N).map (DG.massPart o sc pb)) where
  valid := pattern_valid (pb.at 0)
  diagonal k _ := by
    obtain ⟨c, i⟩ := k
    exact linked_cell (pb.at 0) c i i
  covered x p hp i hi j hj _ := by
    obtain ⟨p, hm, rfl⟩ := List.mem_map.mp hp
    obtain ⟨c, -, rfl⟩ := List.mem_map.mp hm
    exact covered_cell (pb.at 0) c i j hi hj

theorem pattern_at (pb : Transient K P Q d n) (τ : K) : pb.pattern = DG.meshPattern (pb.at τ) := rfl

end dg

section ordered
open LocalOp LocalOp.Spec LocalOp.DG Matrix FEMMesh
variable {K P Q : Type} [Field K] [LinearOrder K] [IsStrictOrderedRing K] {d N : Nat} {n : Fin N → Nat}

theorem accepts (op : LocalOp.DG.Op K) (mesh : Mesh K P Q d n) (h : Spec.Incompressible op mesh) : Accepts op mesh := by
  intro F hF q hq hO
  have h1 := (h.boundary F hF q hq).1 hO.1
  have h2 := hO.2
  unfold faceFlow at h1
  have h3 : (0 : K) ≤ 1 / 10 ^ 30 := by positivity
  linarith

theorem monotone (op : LocalOp.DG.Op K) (mesh : Mesh K P Q d n) (h : Stable op mesh) (x y : MeshVec K n) :
    0 ≤ dgForm op mesh x (fun k => x k - y k) - dgForm op mesh y fun k => x k - y k := by
  obtain ⟨κ, Nf, hκ, ha, hf, hα⟩ := h.conditions
  have hA := accepts op mesh h.incompressible
  obtain ⟨r, hr⟩ := residual_some op mesh hA x
  obtain ⟨r', hr'⟩ := residual_some op mesh hA y
  have key := C235_monotone op h.weightsOn mesh κ hκ ha h.incompressible Nf hf h.alpha hα x y r r' hr hr'
  rw [residual_tested op mesh x _ r hr, residual_tested op mesh y _ r' hr'] at key
  exact sub_nonneg.mpr key

variable [Inhabited ((c : Fin N) × Fin (n c))]

theorem homogeneous (w : MeshVec K n) : Homogeneous (Trafo.empty : Trafo ((c : Fin N) × Fin (n c)) K) w :=
  ⟨fun _ _ h _ => (by cases h), fun _ h => (by cases h)⟩

theorem admissible : ConstrainedSolve.Admissible (Trafo.empty : Trafo ((c : Fin N) × Fin (n c)) K) where
  keys := List.nodup_nil
  flag := by intro _; simp [Trafo.empty] 
  chains := fun _ _ h => by cases h

theorem bilinear_dg (op : LocalOp.DG.Op K) (mesh : Mesh K P Q d n) (h : Accepts op mesh) (x w : MeshVec K n) :
    ConstrainedSolve.bilinear (DG.meshParts op mesh) x w = dgForm op mesh x w - dgForm op mesh (fun _ => 0) w := by
  unfold ConstrainedSolve.bilinear
  rw [form_dg op mesh h, form_dg op mesh h]

theorem regular (op : LocalOp.DG.Op K) (mesh : Mesh K P Q d n) (h : Definite op mesh) :
    Regular (Trafo.empty : Trafo ((c : Fin N) × Fin (n c)) K) (DG.meshParts op mesh) := by
  intro y _ hw
  have hA := accepts op mesh h.incompressible
  obtain ⟨κ, Nf, hκ, ha, hf, hα⟩ := h.conditions
  obtain ⟨r, hr⟩ := residual_some op mesh hA y
  obtain ⟨r', hr'⟩ := residual_some op mesh hA fun _ => 0
  have he : LocalOp.Spec.total r = LocalOp.Spec.total r' := by
    funext k
    have := hw (fun k' => if k' = k then 1 else 0) (homogeneous _)
    rw [bilinear_dg op mesh hA, ← residual_tested op mesh y _ r hr, ← residual_tested op mesh _ _ r' hr'] at this
    simpa [tested, sub_eq_zero] using this
  have := C235_unique op h.weightsOn mesh κ hκ ha h.incompressible Nf hf h.alpha hα h.definite y (fun _ => 0) r r' hr hr' he
  intro k
  rw [this]

theorem galerkin_iff (op : LocalOp.DG.Op K) (mesh : Mesh K P Q d n) (h : Accepts op mesh) (x : MeshVec K n) :
    Galerkin (Trafo.empty : Trafo ((c : Fin N) × Fin (n c)) K) (DG.meshParts op mesh) x ↔ ∀ w, dgForm op mesh x w = 0 := by
  unfold Galerkin
  simp only [form_dg op mesh h]
  exact ⟨fun hx w => hx.2 w (homogeneous w), fun hx => ⟨(homogeneous x).1, fun w _ => hx w⟩⟩

theorem bilinear_combine (op : LocalOp.DG.Op K) (mesh : Mesh K P Q d n) (h : Accepts op mesh) (a b : K) (u v w : MeshVec K n) :
    ConstrainedSolve.bilinear (DG.meshParts op mesh) (fun k => a * u k + b * v k) w =
      a * ConstrainedSolve.bilinear (DG.meshParts op mesh) u w + b * ConstrainedSolve.bilinear (DG.meshParts op mesh) v w := by
  have haff := parts_affine op mesh h
  rw [bilinear_affine _ _ _ haff, bilinear_affine _ _ _ haff, bilinear_affine _ _ _ haff, ← pair_smul_right, ← pair_smul_right, ← pair_add_right]
  refine pair_congr _ _ _ _ _ (fun _ => rfl) fun q _ i _ => ?_
  unfold localProduct
  rw [← List.sum_map_mul_left, ← List.sum_map_mul_left, ← List.sum_map_add]
  congr 1
  exact List.map_congr_left fun j _ => by ring

theorem scheme_form (op : LocalOp.DG.Op K) (o : Int) (sc : K) (pb : Transient K P Q d n) (hA : ∀ τ, Accepts op (pb.at τ)) (S : Setting K)
    (x : Nat → MeshVec K n) (w : MeshVec K n) :
    stageForm S (pb.spatial op) (pb.temporal o sc) pb.trace x w = ∑ s ∈ Finset.range (S.stage + 1),
      (S.scheme.a S.stage s * (factors S.mode S.dt).2 * massOf o sc pb (x s) w +
       S.scheme.b S.stage s * (factors S.mode S.dt).1 * dgForm op (pb.at (S.time + S.scheme.d s * S.dt)) (x s) w) := by
  unfold stageForm
  refine Finset.sum_congr rfl fun s _ => ?_
  rw [parts_spatial, parts_temporal, form_dg op _ (hA _), massPart_eq, form_mass, mass_eq]

theorem mass_nonneg (o : Int) (sc : K) (pb : Transient K P Q d n) (h1 : ∀ c, NonnegWeights (pb.geo c) (2 * (pb.lfs c).order + o)) (h2 : 0 ≤ sc)
    (w : MeshVec K n) : 0 ≤ massOf o sc pb w w := by
  unfold massOf
  refine Finset.sum_nonneg fun c _ => integrate_nonneg _ _ (h1 c) _ fun p _ => ?_
  rw [mul_assoc]
  exact mul_nonneg h2 (mul_self_nonneg _)

theorem stage_regular (op : LocalOp.DG.Op K) (o : Int) (sc : K) (pb : Transient K P Q d n) (h : DG.Parabolic op o sc pb) (τ f1 b : K) (h1 : 0 < f1)
    (hb : 0 ≤ b) (y : MeshVec K n) (hw : ∀ w, f1 * ConstrainedSolve.bilinear ((List.finRange N).map (DG.massPart o sc pb)) y w +
      b * ConstrainedSolve.bilinear (DG.meshParts op (pb.at τ)) y w = 0) : ∀ k, y k = 0 := by
  have hA := accepts op (pb.at τ) (h.stable τ).incompressible
  have e := hw y
  have hc := monotone op (pb.at τ) (h.stable τ) y fun _ => 0
  simp only [sub_zero] at hc
  rw [← bilinear_dg op (pb.at τ) hA] at hc
  have hm := mass_nonneg o sc pb h.massWeights h.nonneg y
  have hbm : ConstrainedSolve.bilinear ((List.finRange N).map (DG.massPart o sc pb)) y y = massOf o sc pb y y := by
    unfold ConstrainedSolve.bilinear
    rw [massPart_eq, form_mass, form_mass, mass_zero, sub_zero]
    rfl
  rw [hbm] at e
  refine h.definite y (le_antisymm ?_ hm)
  have h2 := mul_nonneg hb hc
  by_contra hpos
  have h3 := mul_pos h1 (not_le.mp hpos)
  linarith

/-- The energy estimate of the one-step theta method. -/
theorem contraction (o : Int) (sc : K) (pb : Transient K P Q d n) (h1 : ∀ c, NonnegWeights (pb.geo c) (2 * (pb.lfs c).order + o)) (h2 : 0 ≤ sc)
    (theta f1 f2 B : K) (hth : 1 / 2 ≤ theta) (hf1 : 0 < f1) (hf2 : 0 < f2) (hB : 0 ≤ B) (e1 e0 : MeshVec K n)
    (heq : f2 * (massOf o sc pb e1 (fun k => theta * e1 k + (1 - theta) * e0 k) - massOf o sc pb e0 fun k => theta * e1 k + (1 - theta) * e0 k) +
      f1 * B = 0) : massOf o sc pb e1 e1 ≤ massOf o sc pb e0 e0 := by
  have hms : ∀ v, massOf o sc pb v (fun k => theta * e1 k + (1 - theta) * e0 k) = theta * massOf o sc pb v e1 + (1 - theta) * massOf o sc pb v e0 := by
    intro v
    simp only [mass_eq]
    rw [mass_symm]
    have : (fun k => theta * e1 k + (1 - theta) * e0 k) = fun k => theta * e1 k - (theta - 1) * e0 k := by funext k; ring
    rw [this, mass_sub_left o sc (asFEM pb) (fun k => theta * e1 k) (fun k => (theta - 1) * e0 k), mass_smul, mass_smul,
      mass_symm _ _ _ e1, mass_symm _ _ _ e0]
    ring
  rw [hms, hms] at heq
  have hm := mass_nonneg o sc pb h1 h2 fun k => e1 k - e0 k
  simp only [mass_eq] at hm heq ⊢
  rw [mass_sub_left o sc (asFEM pb) e1 e0, mass_symm _ _ _ e1 (fun k => e1 k - e0 k), mass_symm _ _ _ e0 (fun k => e1 k - e0 k),
    mass_sub_left o sc (asFEM pb) e1 e0, mass_sub_left o sc (asFEM pb) e1 e0, mass_symm _ _ _ e1 e0] at hm
  rw [mass_symm _ _ _ e1 e0] at heq
  have hprod := mul_nonneg hf1.le hB
  have key : f2 * (theta * FEM.massForm o sc (asFEM pb) e1 e1 + (1 - theta) * FEM.massForm o sc (asFEM pb) e0 e1 -
      (theta * FEM.massForm o sc (asFEM pb) e0 e1 + (1 - theta) * FEM.massForm o sc (asFEM pb) e0 e0)) ≤ 0 := by linarith
  have key2 := nonpos_of_mul_nonpos_right key hf2
  have key3 := mul_nonneg (sub_nonneg.mpr hth) hm
  nlinarith

end ordered

section conservation
open LocalOp LocalOp.Spec LocalOp.DG Matrix
variable {K P Q : Type} [Field K] [LinearOrder K] {d N : Nat} {n : Fin N → Nat}

/-- The indicator function of a cell. -/
def indicator (c : Fin N) : MeshVec K n := fun k => if k.1 = c then 1 else 0

theorem indicator_on (c c' : Fin N) : onCell (indicator c : MeshVec K n) c' = fun _ => if c' = c then 1 else 0 := rfl

theorem dg_indicator (op : LocalOp.DG.Op K) (mesh : Mesh K P Q d n) (c : Fin N) (hc : HasConstants (mesh.lfs c)) (x : MeshVec K n) :
    dgForm op mesh x (indicator c) = netReaction op mesh c x + outOf op mesh c x := by
  have hv : ∀ c' p, value (mesh.lfs c') (onCell (indicator c : MeshVec K n) c') p = if c' = c then 1 else 0 := by
    intro c' p
    rw [indicator_on]
    split
    · rename_i h
      subst h
      exact value_const _ hc 1 p
    · exact value_zero _ p
  have hg : ∀ c' p, gradient (mesh.geo c') (mesh.lfs c') (onCell (indicator c : MeshVec K n) c') p = 0 := by
    intro c' p
    rw [indicator_on]
    split
    · rename_i h
      subst h
      exact gradient_const _ _ hc 1 p
    · exact gradient_zero _ _ p
  unfold dgForm outOf
  rw [add_assoc]
  congr 1
  · rw [Finset.sum_eq_single c]
    · unfold volumeForm netReaction
      rw [DGMesh.integrate_sub']
      refine integrate_congr _ _ _ _ fun q _ => ?_
      rw [hg, hv, if_pos rfl]
      simp only [dotProduct_zero]
      ring
    · intro c' _ hne
      unfold volumeForm
      rw [DGMesh.integrate_sub']
      unfold integrate
      refine List.sum_eq_zero fun v hv' => ?_
      obtain ⟨q, -, rfl⟩ := List.mem_map.mp hv'
      simp only [hg, hv, if_neg hne]
      simp
    · intro h
      exact absurd (Finset.mem_univ c) h
  · congr 1
    · congr 1
      refine List.map_congr_left fun F _ => ?_
      have e1 : ∀ q, value (mesh.lfs F.inside) (fun i => readFace F.inside F.outside (indicator c : MeshVec K n) (.inl i)) q = if F.inside = c then 1 else 0 :=
        fun q => hv F.inside q
      have e2 : ∀ q, value (mesh.lfs F.outside) (fun i => readFace F.inside F.outside (indicator c : MeshVec K n) (.inr i)) q = if F.outside = c then 1 else 0 :=
        fun q => hv F.outside q
      have e3 : ∀ q, gradient (mesh.geo F.inside) (mesh.lfs F.inside) (fun i => readFace F.inside F.outside (indicator c : MeshVec K n) (.inl i)) q = 0 :=
        fun q => hg F.inside q
      have e4 : ∀ q, gradient (mesh.geo F.outside) (mesh.lfs F.outside) (fun i => readFace F.inside F.outside (indicator c : MeshVec K n) (.inr i)) q = 0 :=
        fun q => hg F.outside q
      have h0 : ∀ a : K, (if F.inside = c then innerFlux op mesh F x else 0) - (if F.outside = c then innerFlux op mesh F x else 0) =
          ((if F.inside = c then 1 else 0) - if F.outside = c then 1 else 0) * innerFlux op mesh F x := by
        intro _
        split <;> split <;> ring
      rw [h0 0]
      unfold innerFlux skeletonForm numericalFlux
      have hmul : ∀ (a : K) (f : Q → K) (o : Int), a * integrateFace F.geo o f = integrateFace F.geo o fun q => a * f q := by
        intro a f o
        unfold integrateFace
        rw [← List.sum_map_mul_left]
        congr 1
        exact List.map_congr_left fun q _ => by ring
      rw [hmul]
      refine integrateFace_congr _ _ _ _ fun q _ => ?_
      simp only [e1, e2, e3, e4, dotProduct_zero]
      ring
    · congr 1
      refine List.map_congr_left fun F _ => ?_
      unfold boundaryForm boundaryFlux
      by_cases h : F.inside = c
      · rw [if_pos h]
        refine integrateFace_congr _ _ _ _ fun q _ => ?_
        simp only [hv, hg, if_pos h, dotProduct_zero]
        unfold faceFlow
        cases F.par.bctype q.1 <;> simp only [] <;> ring
      · rw [if_neg h]
        unfold integrateFace
        refine List.sum_eq_zero fun v hv' => ?_
        obtain ⟨q, -, rfl⟩ := List.mem_map.mp hv'
        simp only [hv, hg, if_neg h, dotProduct_zero]
        cases F.par.bctype q.1 <;> simp

theorem mass_indicator (o : Int) (sc : K) (pb : Transient K P Q d n) (c : Fin N) (hc : HasConstants (pb.lfs c)) (x : MeshVec K n) :
    massOf o sc pb x (indicator c) = amountIn o sc pb c x := by
  unfold massOf amountIn
  rw [Finset.sum_eq_single c]
  · refine integrate_congr _ _ _ _ fun q _ => ?_
    rw [indicator_on, if_pos rfl, value_const _ hc, mul_one]
  · intro c' _ hne
    unfold integrate
    refine List.sum_eq_zero fun v hv' => ?_
    obtain ⟨q, -, rfl⟩ := List.mem_map.mp hv'
    simp only [indicator_on, if_neg hne, value_zero, mul_zero, zero_mul]
  · intro h
    exact absurd (Finset.mem_univ c) h

theorem out_total (op : LocalOp.DG.Op K) (mesh : Mesh K P Q d n) (x : MeshVec K n) :
    ∑ c, outOf op mesh c x = (mesh.boundary.map fun F => boundaryFlux op mesh F x).sum := by
  have swap : ∀ {α : Type} (l : List α) (f : Fin N → α → K), ∑ c, (l.map (f c)).sum = (l.map fun a => ∑ c, f c a).sum := by
    intro α l f
    induction l with
    | nil => simp
    | cons a l ih => simp only [List.map_cons, List.sum_cons, Finset.sum_add_distrib, ih]
  unfold outOf
  rw [Finset.sum_add_distrib, swap, swap]
  have h1 : (mesh.inner.map fun F => ∑ c, ((if F.inside = c then innerFlux op mesh F x else 0) - if F.outside = c then innerFlux op mesh F x else 0)).sum = 0 := by
    refine List.sum_eq_zero fun v hv => ?_
    obtain ⟨F, -, rfl⟩ := List.mem_map.mp hv
    simp [Finset.sum_sub_distrib]
  rw [h1, zero_add]
  congr 1
  refine List.map_congr_left fun F _ => ?_
  simp

end conservation

end Verif.DGSolve
