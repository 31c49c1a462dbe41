import Verif.Model.TwoPhase
import Verif.Spec.TwoPhase
import Verif.Spec.LocalOperator
import Verif.Props.Darcy
import Mathlib.Algebra.Order.Field.Basic
import Mathlib.Tactic.Linarith
import Mathlib.Tactic.Positivity
/-
C172, C173: two-phase flow.
-/
set_option linter.unusedSectionVars false
namespace Verif
open Verif.LocalOp Verif.LocalOp.Spec Verif.Tested Matrix

variable {K P : Type} [Field K] [LinearOrder K] {d : Nat}

/-- The state of the liquid in a cell with pressures `x`: its saturation is determined by the capillary pressure. -/
def liquidState (c : TwoPhase.Cell K d) (x : Fin 2 → K) : PhaseState K :=
  ⟨x 0, c.rhoL (x 0), c.nuL (x 0), c.muL (x 0), c.sL (x 1 - x 0), c.krL, c.kAbs⟩

/-- The state of the gas: it fills what the liquid leaves. -/
def gasState (c : TwoPhase.Cell K d) (x : Fin 2 → K) : PhaseState K :=
  ⟨x 1, c.rhoG (x 1), c.nuG (x 1), c.muG (x 1), 1 - c.sL (x 1 - x 0), c.krG, c.kAbs⟩

private theorem total_four (a b c e : K) : let r := total [((.inl 0 : Fin 2 ⊕ Fin 2), a), (.inr 0, b), (.inl 1, c), (.inr 1, e)]
    r (.inl 0) = a ∧ r (.inr 0) = b ∧ r (.inl 1) = c ∧ r (.inr 1) = e := by
  refine ⟨?_, ?_, ?_, ?_⟩ <;> simp [total]

private theorem flux_assoc (s a b c v : K) : s * a * b * c * v = s * (a * b * c) * v := by ring
private theorem flux_assoc' (s a b c v : K) : -s * a * b * c * v = -(s * (a * b * c) * v) := by ring

/-- On an interior face each cell gets, for each phase, the scaled flux through the face, with the sign of the direction; the
saturation of each phase is taken from the cell this phase comes from. -/
theorem C172_skeleton [IsStrictOrderedRing K] (twoNorm : (Fin d → K) → K) (op : TwoPhase.Op K d) (face : TwoPhase.Face K d)
    (inside outside : TwoPhase.Cell K d) (xs xn : Fin 2 → K) :
    let h := twoNorm (outside.center - inside.center)
    let gn := op.gravity ⬝ᵥ face.normal
    let liquid := phaseFlux h gn (liquidState inside xs) (liquidState outside xn)
    let gas := phaseFlux h gn (gasState inside xs) (gasState outside xn)
    let r := total (TwoPhase.alphaSkeleton twoNorm op face inside outside xs xn)
    r (.inl 0) = op.scaleL * liquid * face.volume ∧ r (.inr 0) = -(op.scaleL * liquid * face.volume) ∧
    r (.inl 1) = op.scaleG * gas * face.volume ∧ r (.inr 1) = -(op.scaleG * gas * face.volume) := by
  intro h gn liquid gas r
  have hL : r (.inl 0) = op.scaleL * liquid * face.volume ∧ r (.inr 0) = -(op.scaleL * liquid * face.volume) := by
    obtain ⟨h1, h2, -, -⟩ : r (.inl 0) = _ ∧ r (.inr 0) = _ ∧ r (.inl 1) = _ ∧ r (.inr 1) = _ := total_four _ _ _ _
    rw [h1, h2]
    constructor
    · exact flux_assoc _ _ _ _ _
    · exact flux_assoc' _ _ _ _ _
  have hsat : ∀ wL wG a b : K, (if wL * wG ≤ 0 then 1 - (if 0 ≤ wG then a else b) else 1 - (if 0 ≤ wL then a else b)) =
      if 0 ≤ wG then 1 - a else 1 - b := by
    intro wL wG a b
    by_cases hp : wL * wG ≤ 0
    · rw [if_pos hp]; split <;> rfl
    · rw [if_neg hp]
      push Not at hp
      rcases lt_or_ge wL 0 with hl | hl
      · have : wG < 0 := by
          by_contra hg; push Not at hg
          exact absurd hp (not_lt.2 (mul_nonpos_of_nonpos_of_nonneg hl.le hg))
        rw [if_neg (not_le.2 hl), if_neg (not_le.2 this)]
      · have : 0 ≤ wG := by
          by_contra hg; push Not at hg
          exact absurd hp (not_lt.2 (mul_nonpos_of_nonneg_of_nonpos hl hg.le))
        rw [if_pos hl, if_pos this]
  have hG : r (.inl 1) = op.scaleG * gas * face.volume ∧ r (.inr 1) = -(op.scaleG * gas * face.volume) := by
    obtain ⟨-, -, h1, h2⟩ : r (.inl 0) = _ ∧ r (.inr 0) = _ ∧ r (.inl 1) = _ ∧ r (.inr 1) = _ := total_four _ _ _ _
    rw [h1, h2]
    simp only [ge_iff_le, hsat]
    constructor
    · exact flux_assoc _ _ _ _ _
    · exact flux_assoc' _ _ _ _ _
  exact ⟨hL.1, hL.2, hG.1, hG.2⟩

private theorem drive_swap (h gn : K) (a b : PhaseState K) : drive h (-gn) b a = -drive h gn a b := by
  unfold drive; ring

private theorem phaseFlux_swap [IsStrictOrderedRing K] (h gn : K) (a b : PhaseState K) :
    phaseFlux h (-gn) b a = -phaseFlux h gn a b := by
  unfold phaseFlux
  simp only [drive_swap]
  by_cases h0 : drive h gn a b = 0
  · rw [h0]; simp
  · have hu : upstream (-drive h gn a b) b a = upstream (drive h gn a b) a b := by
      unfold upstream
      rcases lt_or_gt_of_ne h0 with hl | hl
      · rw [if_pos (by linarith), if_neg (not_le.2 hl)]
      · rw [if_neg (by simp [hl]), if_pos hl.le]
    rw [hu]
    have hh : ∀ x y : K, harmonicMean x y = harmonicMean y x := by
      intro x y; unfold harmonicMean; rw [add_comm (1 / (x + 1 / 10 ^ 30))]
    rw [hh (conductivity _ b)]
    ring

/-- It does not matter from which of its two cells a face is visited. -/
theorem C172_orientation [IsStrictOrderedRing K] (twoNorm : (Fin d → K) → K) (hnorm : ∀ v, twoNorm (-v) = twoNorm v)
    (op : TwoPhase.Op K d) (face face' : TwoPhase.Face K d) (hv : face'.volume = face.volume) (hn : face'.normal = -face.normal)
    (inside outside : TwoPhase.Cell K d) (xs xn : Fin 2 → K) (i : Fin 2) :
    total (TwoPhase.alphaSkeleton twoNorm op face' outside inside xn xs) (.inl i) =
      total (TwoPhase.alphaSkeleton twoNorm op face inside outside xs xn) (.inr i) ∧
    total (TwoPhase.alphaSkeleton twoNorm op face' outside inside xn xs) (.inr i) =
      total (TwoPhase.alphaSkeleton twoNorm op face inside outside xs xn) (.inl i) := by
  obtain ⟨a1, a2, a3, a4⟩ := C172_skeleton twoNorm op face' outside inside xn xs
  obtain ⟨b1, b2, b3, b4⟩ := C172_skeleton twoNorm op face inside outside xs xn
  rw [hv, hn, dotProduct_neg, ← neg_sub outside.center, hnorm, phaseFlux_swap] at a1 a2 a3 a4
  rcases (show i = 0 ∨ i = 1 by omega) with rfl | rfl
  · rw [a1, a2, b1, b2]; constructor <;> ring
  · rw [a3, a4, b3, b4]; constructor <;> ring

/-- A phase flows in the direction of its driving force; in hydrostatic equilibrium nothing flows. -/
theorem C172_direction [IsStrictOrderedRing K] (h gn : K) (a b : PhaseState K) (hnu : 0 ≤ a.nu ∧ 0 ≤ b.nu)
    (hmu : 0 < a.mu ∧ 0 < b.mu) (hk : 0 ≤ a.k ∧ 0 ≤ b.k) (hkr : ∀ s, 0 ≤ a.kr s ∧ 0 ≤ b.kr s) :
    0 ≤ phaseFlux h gn a b * drive h gn a b ∧ (drive h gn a b = 0 → phaseFlux h gn a b = 0) := by
  constructor
  · unfold phaseFlux
    simp only []
    set w := drive h gn a b
    have hc : ∀ s, 0 ≤ conductivity s a ∧ 0 ≤ conductivity s b := fun s =>
      ⟨mul_nonneg (div_nonneg (hkr s).1 hmu.1.le) hk.1, mul_nonneg (div_nonneg (hkr s).2 hmu.2.le) hk.2⟩
    have hm : 0 ≤ harmonicMean (conductivity (upstream w a b) a) (conductivity (upstream w a b) b) := by
      have := hc (upstream w a b)
      unfold harmonicMean
      have h1 := this.1
      have h2 := this.2
      positivity
    have : 0 ≤ 1 / 2 * (a.nu + b.nu) := by linarith [hnu.1, hnu.2]
    rw [mul_assoc]
    exact mul_nonneg (mul_nonneg this hm) (mul_self_nonneg w)
  · intro h0; unfold phaseFlux; simp [h0]

/-- On a boundary face the residual of each phase is the scaled flux for a Dirichlet condition (1), the scaled prescribed flux
for a Neumann condition (0), and nothing for other conditions — if both phases have the same scaling factor. -/
theorem C172_boundary_partial (twoNorm : (Fin d → K) → K) (op : TwoPhase.Op K d) (face : TwoPhase.Face K d)
    (cell : TwoPhase.Cell K d) (x : Fin 2 → K) (hscale : op.scaleL = op.scaleG) :
    let h := twoNorm (face.center - cell.center)
    let gn := op.gravity ⬝ᵥ face.normal
    let r i := total (TwoPhase.alphaBoundary twoNorm op face cell x) i + total (TwoPhase.lambdaBoundary op face) i
    r 0 = op.scaleL * (if face.bcL op.time = 1 then phaseBoundaryFlux h gn (liquidState cell x) (face.gL op.time)
      else if face.bcL op.time = 0 then face.jL op.time else 0) * face.volume ∧
    r 1 = op.scaleG * (if face.bcG op.time = 1 then phaseBoundaryFlux h gn (gasState cell x) (face.gG op.time)
      else if face.bcG op.time = 0 then face.jG op.time else 0) * face.volume := by
  intro h gn r
  constructor
  · simp only [r, TwoPhase.alphaBoundary, TwoPhase.lambdaBoundary, phaseBoundaryFlux, conductivity, liquidState]
    by_cases h1 : face.bcL op.time = 1 <;> by_cases h2 : face.bcG op.time = 1 <;> by_cases h3 : face.bcL op.time = 0 <;>
      by_cases h4 : face.bcG op.time = 0 <;> simp [h1, h2, h3, h4, total, h, gn] <;> first | omega | (left; ring1)
  · simp only [r, TwoPhase.alphaBoundary, TwoPhase.lambdaBoundary, phaseBoundaryFlux, conductivity, gasState, hscale]
    by_cases h1 : face.bcL op.time = 1 <;> by_cases h2 : face.bcG op.time = 1 <;> by_cases h3 : face.bcL op.time = 0 <;>
      by_cases h4 : face.bcG op.time = 0 <;> simp [h1, h2, h3, h4, total, h, gn] <;> first | omega | (left; ring1)

def exTwoPhaseCell (c : Rat) : TwoPhase.Cell Rat 1 :=
  ⟨2, fun _ => c, 1 / 2, 3, fun _ => 1 / 4, fun s => s ^ 2, fun s => s ^ 2, fun _ => 1, fun _ => 2, fun p => 1 + p, fun p => 2 + p,
    fun _ => 5, fun _ => 1, fun _ => 1, fun _ => 1⟩
def exTwoPhaseFace (p : Rat) : TwoPhase.Face Rat 1 :=
  ⟨1, fun _ => p, fun _ => 1, fun _ => 1, fun _ => 1, fun _ => 1, fun _ => 2, fun _ => 0, fun _ => 0⟩

/-- With different scaling factors the claim is false: the flux of the gas at a Dirichlet boundary is scaled with the factor of
the liquid. -/
theorem C172_boundaryScaling_false : ∃ (twoNorm : (Fin 1 → Rat) → Rat) (op : TwoPhase.Op Rat 1) (face : TwoPhase.Face Rat 1)
    (cell : TwoPhase.Cell Rat 1) (x : Fin 2 → Rat), face.bcG op.time = 1 ∧
    total (TwoPhase.alphaBoundary twoNorm op face cell x) 1 ≠
      op.scaleG * phaseBoundaryFlux (twoNorm (face.center - cell.center)) (op.gravity ⬝ᵥ face.normal) (gasState cell x)
        (face.gG op.time) * face.volume :=
  ⟨fun v => |v 0|, ⟨fun _ => 0, 1, 10, 0⟩, exTwoPhaseFace 2, exTwoPhaseCell 1, ![3, 5], rfl, by decide +kernel⟩

/-- The storage term of a cell is the amount of each phase in it, the two saturations add up to one; the sources enter with the
volume of the cell, at the time set last. -/
theorem C172_storage (op : TwoPhase.Op K d) (cell : TwoPhase.Cell K d) (x : Fin 2 → K) (t : K) :
    let r := total (TwoPhase.temporalAlphaVolume op cell x)
    let q := total (TwoPhase.lambdaVolume (op.setTime t) cell)
    r 0 = op.scaleL * (cell.phi * cell.volume) * ((liquidState cell x).s * (liquidState cell x).nu) ∧
    r 1 = op.scaleG * (cell.phi * cell.volume) * ((gasState cell x).s * (gasState cell x).nu) ∧
    (liquidState cell x).s + (gasState cell x).s = 1 ∧
    q 0 = -(op.scaleL * cell.qL t * cell.volume) ∧ q 1 = -(op.scaleG * cell.qG t * cell.volume) := by
  refine ⟨?_, ?_, ?_, ?_, ?_⟩ <;>
    simp [TwoPhase.temporalAlphaVolume, TwoPhase.lambdaVolume, TwoPhase.Op.setTime, liquidState, gasState, total] <;> ring

/-- Each phase is conserved on the whole grid: the residuals of all cells for all interior faces add up to zero. A face of the
grid is given with the numbers of its two cells. -/
theorem C172_conservation [IsStrictOrderedRing K] {cells : Type} [Fintype cells] [DecidableEq cells] (twoNorm : (Fin d → K) → K)
    (op : TwoPhase.Op K d) (cell : cells → TwoPhase.Cell K d) (x : cells → Fin 2 → K)
    (faces : List (cells × cells × TwoPhase.Face K d)) (i : Fin 2) :
    ∑ c, (faces.map fun f =>
      (if f.1 = c then total (TwoPhase.alphaSkeleton twoNorm op f.2.2 (cell f.1) (cell f.2.1) (x f.1) (x f.2.1)) (.inl i) else 0) +
      (if f.2.1 = c then total (TwoPhase.alphaSkeleton twoNorm op f.2.2 (cell f.1) (cell f.2.1) (x f.1) (x f.2.1)) (.inr i)
        else 0)).sum = 0 := by
  induction faces with
  | nil => simp
  | cons f l ih =>
    simp only [List.map_cons, List.sum_cons]
    rw [Finset.sum_add_distrib, ih, add_zero, Finset.sum_add_distrib]
    simp only [Finset.sum_ite_eq, Finset.mem_univ, if_true]
    obtain ⟨b1, b2, b3, b4⟩ := C172_skeleton twoNorm op f.2.2 (cell f.1) (cell f.2.1) (x f.1) (x f.2.1)
    rcases (show i = 0 ∨ i = 1 by omega) with rfl | rfl
    · rw [b1, b2]; ring
    · rw [b3, b4]; ring

/-- The interface of the parameters forwards every parameter except the viscosity of the gas. -/
theorem C172_interface_partial (imp : TwoPhase.Cell K d) (h : imp.muG = imp.muL) : TwoPhase.interface imp = imp := by
  cases imp; simp_all [TwoPhase.interface]

/-- Through the interface the viscosity of the gas is that of the liquid. -/
theorem C172_interface_false : ∃ imp : TwoPhase.Cell Rat 1, (TwoPhase.interface imp).muG 0 ≠ imp.muG 0 :=
  ⟨exTwoPhaseCell 0, by decide⟩

/-! ### C173: the velocities -/

/-- What the velocity of a phase has to be on the faces of a cell. -/
def expectedFlux (twoNorm : (Fin d → K) → K) (gravity : Fin d → K) (cell : TwoPhase.Cell K d) (xs : Fin 2 → K)
    (state : TwoPhase.Cell K d → (Fin 2 → K) → PhaseState K) (bc : Int) (g j : K) (is : TwoPhase.Intersection K d) : K :=
  match is.boundary, is.outside with
  | true, _ => if bc = 1 then phaseBoundaryFlux (twoNorm (is.face.center - cell.center)) (gravity ⬝ᵥ is.face.normal) (state cell xs) g
      else if bc = 0 then j else 0
  | false, some (out, xn) =>
    phaseFlux (twoNorm (out.center - cell.center)) (gravity ⬝ᵥ is.face.normal) (state cell xs) (state out xn)
  | false, none => 0

/-- The normal velocities are the fluxes of the scheme per area, if the molar density of the liquid in the neighbour does not
depend on the pressure and the gas has the same mass density in both cells. (On periodic boundaries, with a neighbour, nothing
is claimed.) -/
theorem C173_velocities_partial (twoNorm : (Fin d → K) → K) (gravity : Fin d → K) (time : K) (cell : TwoPhase.Cell K d)
    (xs : Fin 2 → K) (is : TwoPhase.Intersection K d) (hb : is.boundary = true → is.outside = none) :
    ((∀ out xn, is.outside = some (out, xn) → out.nuL (xn 1) = out.nuL (xn 0)) →
      TwoPhase.normalVelocityL twoNorm gravity time cell xs is =
        expectedFlux twoNorm gravity cell xs liquidState (is.face.bcL time) (is.face.gL time) (is.face.jL time) is) ∧
    ((∀ out xn, is.outside = some (out, xn) → cell.rhoG (xn 1) = out.rhoG (xn 1)) →
      TwoPhase.normalVelocityG twoNorm gravity time cell xs is =
        expectedFlux twoNorm gravity cell xs gasState (is.face.bcG time) (is.face.gG time) (is.face.jG time) is) := by
  obtain ⟨index, face, boundary, outside⟩ := is
  constructor
  · intro hnu
    unfold TwoPhase.normalVelocityL expectedFlux
    cases boundary with
    | true =>
      have : outside = none := hb rfl
      subst this
      simp only [if_true, phaseBoundaryFlux, liquidState, conductivity]
    | false =>
      cases outside with
      | none => simp
      | some o =>
        obtain ⟨out, xn⟩ := o
        have := hnu out xn rfl
        simp only [Bool.false_eq_true, if_false, this]
        rfl
  · intro hrho
    unfold TwoPhase.normalVelocityG expectedFlux
    cases boundary with
    | true =>
      have : outside = none := hb rfl
      subst this
      simp only [if_true, phaseBoundaryFlux, gasState, conductivity]
    | false =>
      cases outside with
      | none => simp
      | some o =>
        obtain ⟨out, xn⟩ := o
        have := hrho out xn rfl
        have hif : ∀ (c : Prop) [Decidable c] (a b : K), 1 - (if c then a else b) = if c then 1 - a else 1 - b := by
          intro c _ a b; split <;> rfl
        simp only [Bool.false_eq_true, if_false, this, hif]
        rfl

/-- For compressible liquids and for two gases of different density the claims are false. -/
theorem C173_velocities_false : (∃ (twoNorm : (Fin 1 → Rat) → Rat) (cell : TwoPhase.Cell Rat 1) (xs : Fin 2 → Rat)
      (is : TwoPhase.Intersection Rat 1), is.boundary = false ∧ TwoPhase.normalVelocityL twoNorm 0 0 cell xs is ≠
        expectedFlux twoNorm 0 cell xs liquidState (is.face.bcL 0) (is.face.gL 0) (is.face.jL 0) is) ∧
    (∃ (twoNorm : (Fin 1 → Rat) → Rat) (cell : TwoPhase.Cell Rat 1) (xs : Fin 2 → Rat)
      (is : TwoPhase.Intersection Rat 1), is.boundary = false ∧ TwoPhase.normalVelocityG twoNorm 1 0 cell xs is ≠
        expectedFlux twoNorm 1 cell xs gasState (is.face.bcG 0) (is.face.gG 0) (is.face.jG 0) is) :=
  ⟨⟨fun v => |v 0|, exTwoPhaseCell 1, ![3, 5], ⟨1, exTwoPhaseFace 2, false, some (exTwoPhaseCell 3, ![1, 4])⟩, rfl, by
      unfold expectedFlux; decide +kernel⟩,
    ⟨fun v => |v 0|, exTwoPhaseCell 1, ![3, 5],
      ⟨1, exTwoPhaseFace 2, false, some ({ exTwoPhaseCell 3 with rhoG := fun _ => 7 }, ![1, 4])⟩, rfl, by
      unfold expectedFlux; decide +kernel⟩⟩

private theorem update_fold {α : Type} {m : Nat} (index : α → Fin m) (f : α → K) (l : List α) (hn : (l.map index).Nodup) (c₀ : Fin m → K) (a : α)
    (ha : a ∈ l) : l.foldl (fun c b => Function.update c (index b) (f b)) c₀ (index a) = f a := by
  induction l generalizing c₀ with
  | nil => cases ha
  | cons b l ih =>
    rw [List.map_cons, List.nodup_cons] at hn
    rw [List.foldl_cons]
    rcases List.mem_cons.1 ha with rfl | h
    · have : ∀ (l : List α) (c : Fin m → K), index a ∉ l.map index →
          l.foldl (fun c b => Function.update c (index b) (f b)) c (index a) = c (index a) := by
        intro l
        induction l with
        | nil => intro c _; rfl
        | cons b l ih =>
          intro c hb
          rw [List.map_cons, List.mem_cons, not_or] at hb
          rw [List.foldl_cons, ih _ hb.2, Function.update_of_ne hb.1]
      rw [this _ _ hn.1, Function.update_self]
    · exact ih hn.2 _ h

/-- On an affine cell the normal component of the velocity on each face is the normal velocity, at every point of the face. -/
theorem C173_normal_component (invert : Matrix (Fin d) (Fin d) K → Matrix (Fin d) (Fin d) K)
    (hinv : ∀ M, M.det ≠ 0 → M * invert M = 1) (rt0 : P → Fin (2 * d) → Fin d → K)
    (jacobianInverseTransposed : P → Matrix (Fin d) (Fin d) K) (B : Matrix (Fin d) (Fin d) K) (hB : B.det ≠ 0)
    (haff : ∀ x, jacobianInverseTransposed x = B) (vn : TwoPhase.Intersection K d → K) (iss : List (TwoPhase.Intersection K d))
    (hnodup : (iss.map fun i => i.index).Nodup) (is : TwoPhase.Intersection K d) (his : is ∈ iss) (scale : K)
    (hnormal : is.face.normal = scale • (B *ᵥ cubeNormal is.index)) (hunit : is.face.normal ⬝ᵥ is.face.normal = 1)
    (x : P) (hx : OnFace rt0 cubeNormal x is.index) :
    TwoPhase.velocity invert rt0 jacobianInverseTransposed vn iss x ⬝ᵥ is.face.normal = vn is := by
  unfold TwoPhase.velocity
  simp only [haff]
  have hget := update_fold (fun i : TwoPhase.Intersection K d => i.index)
    (fun is => (B.det • (Bᵀ *ᵥ (vn is • is.face.normal))) ⬝ᵥ Darcy.normalHat is.index) iss hnodup 0 is his
  set coeff : Fin (2 * d) → K := iss.foldl (fun c is => Function.update c is.index
    ((B.det • (Bᵀ *ᵥ (vn is • is.face.normal))) ⬝ᵥ Darcy.normalHat is.index)) 0
  have hBI : B * invert B = 1 := hinv B hB
  have hy : (∑ i, coeff i • rt0 x i) ⬝ᵥ cubeNormal is.index = coeff is.index := by
    rw [sum_dotProduct, Finset.sum_eq_single is.index]
    · rw [smul_dotProduct, hx, if_pos rfl, smul_eq_mul, mul_one]
    · intro j _ hj; rw [smul_dotProduct, hx, if_neg hj, smul_zero]
    · simp
  have hcoef : coeff is.index = B.det * (vn is * (is.face.normal ⬝ᵥ (B *ᵥ cubeNormal is.index))) := by
    rw [show coeff is.index = _ from hget, normalHat_eq, smul_dotProduct, mulVec_smul, smul_dotProduct, smul_eq_mul, smul_eq_mul]
    congr 2
    rw [dotProduct_mulVec, ← mulVec_transpose]
  have hs : scale * (is.face.normal ⬝ᵥ (B *ᵥ cubeNormal is.index)) = 1 := by
    rw [← smul_eq_mul, ← dotProduct_smul, ← hnormal]; exact hunit
  have hJn : ((invert B)ᵀ *ᵥ ∑ i, coeff i • rt0 x i) ⬝ᵥ is.face.normal = scale * coeff is.index := by
    conv_lhs => rw [hnormal]
    rw [dotProduct_smul, smul_eq_mul, dotProduct_mulVec, ← mulVec_transpose, mulVec_mulVec]
    have : Bᵀ * (invert B)ᵀ = 1 := by
      have := congrArg Matrix.transpose (mul_eq_one_comm.1 hBI)
      rwa [transpose_mul, transpose_one] at this
    rw [this, one_mulVec, hy]
  rw [smul_dotProduct, hJn, hcoef, smul_eq_mul]
  have hd : B.det⁻¹ * B.det = 1 := inv_mul_cancel₀ hB
  linear_combination B.det⁻¹ * B.det * vn is * hs + vn is * hd

/-- Concrete cases: both phases flow, in opposite directions; the hypotheses of the theorems hold. -/
example : total (TwoPhase.alphaSkeleton (fun v => |v 0|) ⟨fun _ => 0, 1, 10, 0⟩ (exTwoPhaseFace 2) (exTwoPhaseCell 1) (exTwoPhaseCell 3)
      ![3, 4] ![1, 5]) (.inl 0) > 0 ∧
    total (TwoPhase.alphaSkeleton (fun v => |v 0|) ⟨fun _ => 0, 1, 10, 0⟩ (exTwoPhaseFace 2) (exTwoPhaseCell 1) (exTwoPhaseCell 3)
      ![3, 4] ![1, 5]) (.inl 1) < 0 := by decide +kernel

example : OnFace (d := 1) exRt0 cubeNormal (1 : Rat) 1 ∧ (!![1 / 2] : Matrix (Fin 1) (Fin 1) Rat).det ≠ 0 ∧
    (exTwoPhaseFace 2).normal = (2 : Rat) • ((!![1 / 2] : Matrix (Fin 1) (Fin 1) Rat) *ᵥ cubeNormal 1) :=
  ⟨by unfold OnFace; decide +kernel, by decide +kernel, by decide +kernel⟩

end Verif
