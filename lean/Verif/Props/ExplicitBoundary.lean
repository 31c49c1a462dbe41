import Verif.Proofs.ExplicitBoundary
/-
C214-C216: the explicit one step method with boundary function and limiter.
-/
namespace Verif
open OneStep Finset

section
variable {D K M : Type} [Field K] [LinearOrder K] [IsStrictOrderedRing K]

omit [IsStrictOrderedRing K] in
/-- **C215.** With any limiter: every stage value is `poststage` of a vector that has the boundary values at the constrained DOFs and solves the
linear system of the stage at the others, where the stage is assembled from the final (limited) earlier stages; all but the last stage and the old
value pass `prestage` before they are used. The linear solver is exact and the matrix has trivial rows at the constrained DOFs. -/
theorem C215_limited_stages (E : BEnv D K M) (mem : Nat → D → K) (hs : 1 ≤ E.scheme.s)
    (hsub : ∀ r y v w, E.act (E.asm r y).1 (fun d => v d - w d) = fun d => E.act (E.asm r y).1 v d - E.act (E.asm r y).1 w d)
    (htriv : ∀ r y v d, E.constrained d = true → E.act (E.asm r y).1 v d = v d)
    (hls : ∀ r y u b, E.act (E.asm r y).1 (E.ls (E.asm r y).1 u b) = b) :
    (bApply E mem).2 = min E.suggested E.dt ∧ (bApply E mem).1 0 = E.pre (mem 0) ∧
    ∀ r, 1 ≤ r → r ≤ E.scheme.s → ∃ (y : Nat → D → K) (v : D → K), (∀ i, i < r → y i = (bApply E mem).1 i) ∧
      (∀ d, E.constrained d = true → v d = E.bvals (E.time + E.scheme.d r * E.dt) d) ∧
      (∀ d, E.constrained d = false → E.act (E.asm r y).1 v d = (E.asm r y).2.2 d + (bApply E mem).2 * (E.asm r y).2.1 d) ∧
      (bApply E mem).1 r = if r < E.scheme.s then E.pre (E.post v) else E.post v := by
  obtain ⟨g1, g2, g3⟩ := bFold E (chooseDt E.suggested E.dt) E.scheme.s 1 ⟨mem, fun _ => 0, E.dt⟩ (le_refl _) (by omega)
    (fun h => absurd rfl h) (fun _ => rfl)
  obtain ⟨g2, g4⟩ := g2 hs
  refine ⟨g4, g2, fun r h1 h2 => ?_⟩
  obtain ⟨v, ⟨y, u0, hy, hb, hv⟩, hk⟩ := g3 r h1 h2
  refine ⟨y, v, hy, fun d hd => ?_, fun d hd => ?_, hk⟩
  · have h0 := congrFun (hls r y u0 (fun d => if E.constrained d then 0 else
      E.act (E.asm r y).1 (y r) d - ((E.asm r y).2.2 d + chooseDt E.suggested E.dt * (E.asm r y).2.1 d))) d
    rw [htriv r y _ d hd] at h0
    rw [hv]
    simp only [hd, if_true] at h0 ⊢
    rw [h0, sub_zero, hb d hd]
  · rw [hv, hsub, hls]
    have : (bApply E mem).2 = chooseDt E.suggested E.dt := g4
    rw [this]
    simp only [hd]
    simp

/-- **C214.** A step with a boundary function gives every stage the values of the function at the time of the stage at the constrained DOFs and
satisfies the stage equations of the scheme at all other DOFs, with the returned step, and leaves the old value unchanged; for a linear temporal
operator with volume terms only, an exact linear solver, no limiter, and if the controller keeps the given step or nothing depends on time. -/
theorem C214_explicit_boundary_partial [AddCommGroup M] [Module K M] (E : BEnv D K M) (mem : Nat → D → K)
    (R0 R1 : Op K (D → K) (D → K)) (J1 : Op K (D → K) M) (triv : M → M) (trace : List (Kind × Nat)) (st : St K (D → K) (D → K))
    (act : M →+ ((D → K) → D → K))
    (hasm : E.asm = bAsm E.scheme E.time E.dt R0 R1 J1 triv trace st) (hact : ∀ m, E.act m = act m)
    (hpre : ∀ v, E.pre v = v) (hpost : ∀ v, E.post v = v)
    (hsub : ∀ m v w, act m (fun d => v d - w d) = fun d => act m v d - act m w d)
    (htriv : ∀ m v d, act (triv m) v d = if E.constrained d then v d else act m v d)
    (hls : ∀ t y u b, act (triv (-form J1 trace t y)) (E.ls (triv (-form J1 trace t y)) u b) = b)
    (hlin : ∀ k e t y z, act (J1 k e t y) z = R1 k e t z)
    (hv : ∀ k e t x, k ≠ .uvVolume → k ≠ .vVolume → J1 k e t x = 0)
    (hdt : (bApply E mem).2 = E.dt ∨ (Autonomous R0 ∧ Autonomous R1 ∧ ∀ t t', E.bvals t = E.bvals t'))
    (ha : ∀ r, 1 ≤ r → r ≤ E.scheme.s → E.scheme.a r r = 1) (hb : ∀ r, 1 ≤ r → r ≤ E.scheme.s → E.scheme.b r r = 0)
    (ht : ∀ r, 1 ≤ r → r ≤ E.scheme.s → NoTinyCoefficients E.scheme r) :
    (bApply E mem).1 0 = mem 0 ∧
    ∀ r, 1 ≤ r → r ≤ E.scheme.s → ∀ d,
      (E.constrained d = true → (bApply E mem).1 r d = E.bvals (E.time + E.scheme.d r * (bApply E mem).2) d) ∧
      (E.constrained d = false →
        schemeResidual ⟨E.scheme, E.time, (bApply E mem).2, .multiplyOperator0ByDT, r⟩ R0 R1 trace (bApply E mem).1 d = 0) := by
  rcases Nat.eq_zero_or_pos E.scheme.s with h0 | hs
  · refine ⟨?_, fun r h1 h2 => by omega⟩
    simp [bApply, h0]
  have key : ∀ r y, 1 ≤ r → r ≤ E.scheme.s → E.asm r y
      = (triv (-form J1 trace (E.time + E.scheme.d r * E.dt) (y r)), ∑ s ∈ range r, E.scheme.b r s • form R0 trace (E.time + E.scheme.d s * E.dt) (y s),
        ∑ s ∈ range r, E.scheme.a r s • form R1 trace (E.time + E.scheme.d s * E.dt) (y s)) := by
    intro r y h1 h2
    have := C66_explicit_parts_partial ⟨E.scheme, E.time, E.dt, .doNotAssembleDT, r⟩ R0 R1 J1 y trace st 0 hv (ht r h1 h2)
    rw [hasm]
    unfold bAsm
    rw [this]
    simp only [factors, mul_one, zero_sub]
  have hform : ∀ t u w, act (form J1 trace t u) w = form R1 trace t w := by
    intro t u w
    clear key hls hasm
    induction trace with
    | nil => simp [form]
    | cons c trace ih => rw [form_cons, form_cons, map_add, Pi.add_apply, ih, hlin]
  obtain ⟨g1, g2, g3⟩ := bFold E (chooseDt E.suggested E.dt) E.scheme.s 1 ⟨mem, fun _ => 0, E.dt⟩ (le_refl _) (by omega)
    (fun h => absurd rfl h) (fun _ => rfl)
  obtain ⟨g2, g4⟩ := g2 hs
  have hX : ((List.range' 1 E.scheme.s).foldl (bStage E) ⟨mem, fun _ => 0, E.dt⟩).mem = (bApply E mem).1 := rfl
  have hT : (bApply E mem).2 = chooseDt E.suggested E.dt := g4
  rw [hX] at g2 g3
  refine ⟨by rw [g2, hpre], fun r h1 h2 d => ?_⟩
  obtain ⟨v, ⟨y, u0, hy, hbv, hv'⟩, hk⟩ := g3 r h1 h2
  have hk' : (bApply E mem).1 r = v := by rw [hk]; split <;> simp [hpre, hpost]
  rw [← hT] at hv'
  generalize (bApply E mem).1 = X at *
  generalize (bApply E mem).2 = nd at *
  have hD := key r y h1 h2
  rw [hD] at hv'
  simp only at hv'
  generalize hb' : (fun d => if E.constrained d then (0 : K) else E.act (triv (-form J1 trace (E.time + E.scheme.d r * E.dt) (y r))) (y r) d -
    ((∑ s ∈ range r, E.scheme.a r s • form R1 trace (E.time + E.scheme.d s * E.dt) (y s)) d
      + nd * (∑ s ∈ range r, E.scheme.b r s • form R0 trace (E.time + E.scheme.d s * E.dt) (y s)) d)) = res at hv'
  have hsol := hls (E.time + E.scheme.d r * E.dt) (y r) u0 res
  constructor
  · intro hd
    have h0 := congrFun hsol d
    rw [htriv, if_pos hd, ← hb'] at h0
    simp only [hd, if_true] at h0
    rw [← hb'] at hv'
    rw [hk', hv']
    simp only [h0, sub_zero]
    rw [hbv d hd]
    rcases hdt with h | ⟨_, _, h⟩
    · rw [h]
    · exact congrFun (h _ _) d
  · intro hd
    have hact' : act (triv (-form J1 trace (E.time + E.scheme.d r * E.dt) (y r))) v d
        = (∑ s ∈ range r, E.scheme.a r s • form R1 trace (E.time + E.scheme.d s * E.dt) (y s)) d
          + nd * (∑ s ∈ range r, E.scheme.b r s • form R0 trace (E.time + E.scheme.d s * E.dt) (y s)) d := by
      rw [hv', hsub, hsol, ← hb']
      simp only [hd, hact]
      simp
    rw [htriv, hd] at hact'
    simp only [Bool.false_eq_true, if_false] at hact'
    rw [map_neg, Pi.neg_apply, hform] at hact'
    have t1 : ∀ s w, form R1 trace (E.time + E.scheme.d s * E.dt) w = form R1 trace (E.time + E.scheme.d s * nd) w := by
      intro s w
      rcases hdt with hd | ⟨_, hd, _⟩
      · rw [hd]
      · exact form_autonomous R1 hd trace _ _ w
    have t0 : ∀ s w, form R0 trace (E.time + E.scheme.d s * E.dt) w = form R0 trace (E.time + E.scheme.d s * nd) w := by
      intro s w
      rcases hdt with hd | ⟨hd, _, _⟩
      · rw [hd]
      · exact form_autonomous R0 hd trace _ _ w
    have e1 : ∑ s ∈ range r, E.scheme.a r s • form R1 trace (E.time + E.scheme.d s * E.dt) (y s)
        = ∑ s ∈ range r, E.scheme.a r s • form R1 trace (E.time + E.scheme.d s * nd) (X s) :=
      sum_congr rfl fun s hs => by rw [t1, hy s (mem_range.mp hs)]
    have e0 : ∑ s ∈ range r, E.scheme.b r s • form R0 trace (E.time + E.scheme.d s * E.dt) (y s)
        = ∑ s ∈ range r, E.scheme.b r s • form R0 trace (E.time + E.scheme.d s * nd) (X s) :=
      sum_congr rfl fun s hs => by rw [t0, hy s (mem_range.mp hs)]
    rw [e1, e0, t1, ← hk'] at hact'
    unfold schemeResidual
    simp only [factors, mul_one]
    rw [sum_range_succ, ha r h1 h2, hb r h1 h2, zero_mul, zero_smul, add_zero, one_smul, sum_add_distrib]
    simp only [Pi.add_apply, Pi.neg_apply] at hact' ⊢
    have e2 : ∑ s ∈ range r, (E.scheme.b r s * nd) • form R0 trace (E.time + E.scheme.d s * nd) (X s)
        = nd • ∑ s ∈ range r, E.scheme.b r s • form R0 trace (E.time + E.scheme.d s * nd) (X s) := by
      rw [smul_sum]
      exact sum_congr rfl fun s _ => by rw [smul_smul, mul_comm]
    rw [e2, Pi.smul_apply, smul_eq_mul, ← hact']
    ring

end

/-! ### Concrete cases: two DOFs, one of them constrained, `u' = -u` with a mass matrix 2 -/

/-- Reaction and mass terms on two DOFs, with the diagonal of the mass matrix. -/
def bReaction : Op ℚ (Bool → ℚ) (Bool → ℚ) := fun _ _ _ x => x
def bMass : Op ℚ (Bool → ℚ) (Bool → ℚ) := fun k _ _ x => if k = .uvVolume then fun d => 2 * x d else 0
def bMassJ : Op ℚ (Bool → ℚ) (Bool → ℚ) := fun k _ _ _ => if k = .uvVolume then fun _ => 2 else 0
def bAct : (Bool → ℚ) →+ ((Bool → ℚ) → Bool → ℚ) :=
  { toFun := fun A x d => A d * x d, map_zero' := by funext x d; simp, map_add' := by intro A B; funext x d; simp [add_mul] }
def bTriv (A : Bool → ℚ) : Bool → ℚ := fun d => if d then 1 else A d

/-- DOF `true` is constrained, boundary values `t`, an exact solver, the given scheme, suggestion and first limiter method. -/
def bDemo (S : Scheme ℚ) (suggested : ℚ) (pre : (Bool → ℚ) → Bool → ℚ) : BEnv Bool ℚ (Bool → ℚ) where
  scheme := S
  time := 0
  dt := 1
  suggested := suggested
  constrained := fun d => d
  bvals := fun t _ => t
  asm := bAsm S 0 1 bReaction bMass bMassJ bTriv [(.uvVolume, 0)] ⟨⟨0, 0, 0⟩, ⟨0, 0, 0⟩, 0, 0⟩
  act := fun A x d => A d * x d
  ls := fun A _ b d => b d / A d
  pre := pre
  post := fun v => v

/-- Heun's scheme with the full step meets the hypotheses of C214. -/
example (mem : Nat → Bool → ℚ) : ∀ r, 1 ≤ r → r ≤ 2 → ∀ d,
    (d = true → (bApply (bDemo heun 2 (fun v => v)) mem).1 r d = (heun : Scheme ℚ).d r) ∧
    (d = false → schemeResidual ⟨heun, 0, 1, .multiplyOperator0ByDT, r⟩ bReaction bMass [(.uvVolume, 0)]
      (bApply (bDemo heun 2 (fun v => v)) mem).1 d = 0) := by
  have hS := C23_builtin_schemes (0 : ℚ) (1415/1000) (435/1000) (Or.inl rfl) (Or.inr (by norm_num)) (by norm_num) (by norm_num)
    (by norm_num) (by norm_num) heun (by simp)
  have hdt : (bApply (bDemo heun 2 (fun v => v)) mem).2 = 1 := by
    simp [bApply, bDemo, heun, List.range', bStage, chooseDt]
  have := (C214_explicit_boundary_partial (bDemo heun 2 (fun v => v)) mem bReaction bMass bMassJ bTriv [(.uvVolume, 0)]
    ⟨⟨0, 0, 0⟩, ⟨0, 0, 0⟩, 0, 0⟩ bAct rfl (fun _ => rfl) (fun _ => rfl) (fun _ => rfl)
    (by intro m v w; funext d; simp [bAct, mul_sub])
    (by intro m v d; cases d <;> simp [bAct, bTriv, bDemo])
    (by intro t y u b; funext d; cases d <;> simp [bAct, bTriv, bDemo, form, bMassJ]; ring)
    (by intro k e t y z; funext d; simp only [bAct, bMassJ, bMass]; split <;> simp_all)
    (by intro k e t x h1 _; simp [bMassJ, h1]) (Or.inl hdt) (fun r h1 h2 => (hS r h1 h2).1)
    (by intro r h1 h2; simp only [bDemo, heun] at h2; interval_cases r <;> simp [Scheme.b, bDemo, heun])
    (fun r h1 h2 => (hS r h1 h2).2)).2
  rw [hdt] at this
  intro r h1 h2 d
  have h := this r h1 h2 d
  refine ⟨fun hd => ?_, h.2⟩
  rw [h.1 hd]
  simp [bDemo]

/-- **C214** is false of the code if the controller shortens the step: the boundary values of the new solution are those at the end of the given
step, not at the end of the returned one. (Explicit Euler, given step 1 and suggestion 1/2.) -/
theorem C214_explicit_boundary_false :
    ¬ ∀ (S : Scheme ℚ) (suggested : ℚ) (mem : Nat → Bool → ℚ), 1 ≤ S.s → S.implicit = false →
      (bApply (bDemo S suggested (fun v => v)) mem).1 S.s true
        = (bDemo S suggested (fun v => v)).bvals (0 + S.d S.s * (bApply (bDemo S suggested (fun v => v)) mem).2) true := by
  intro h
  have := h explicitEuler (1/2) (fun _ _ => 0) (by decide +kernel) (by decide +kernel)
  revert this
  decide +kernel

/-- The hypotheses of C215 are met by a limiter that changes the old value. -/
example (mem : Nat → Bool → ℚ) : (bApply (bDemo heun 2 (fun v d => min (v d) 1)) mem).1 0 = fun d => min (mem 0 d) 1 :=
  (C215_limited_stages (bDemo heun 2 (fun v d => min (v d) 1)) mem (by decide +kernel)
    (by intro r y v w; funext d; simp [bDemo, mul_sub])
    (by intro r y v d hd; have : d = true := hd; subst this; simp [bDemo, bAsm, bTriv])
    (by
      intro r y u b
      have h : ∀ d, (bAsm (heun : Scheme ℚ) 0 1 bReaction bMass bMassJ bTriv [(.uvVolume, 0)] ⟨⟨0, 0, 0⟩, ⟨0, 0, 0⟩, 0, 0⟩ r y).1 d ≠ 0 := by
        intro d
        cases d <;> simp [bAsm, bTriv, explicitJacobianResidual, explicitCall, bMassJ]
      funext d
      simp only [bDemo]
      rw [mul_comm]
      exact div_mul_cancel₀ _ (h d))).2.1

/-- **C215**: the old value, documented as input only, is not preserved when the limiter changes it. -/
theorem C215_old_value_false :
    ¬ ∀ (S : Scheme ℚ) (pre : (Bool → ℚ) → Bool → ℚ) (mem : Nat → Bool → ℚ),
      (bApply (bDemo S 1 pre) mem).1 0 = mem 0 := by
  intro h
  have := congrFun (h explicitEuler (fun v d => min (v d) 1) (fun _ _ => 3)) false
  revert this
  decide +kernel

/-- **C216.** If neither the constructor nor a later `setMethod` throws, the object uses an explicit scheme. -/
theorem C216_scheme_explicit_partial {K : Type} [Field K] [LinearOrder K] (S0 S : Scheme K) (h : exConstruct S0 = some S)
    (calls : List (Scheme K)) (hc : ∀ T ∈ calls, ∀ U : Scheme K, (exSetMethod U T).1 = false) :
    (calls.foldl (fun U T => (exSetMethod U T).2) S).implicit = false ∧
    calls.foldl (fun U T => (exSetMethod U T).2) S = (calls.getLast?).getD S0 := by
  have hS : S0.implicit = false ∧ S = S0 := by
    unfold exConstruct at h
    split at h
    · exact absurd h (by simp)
    · rename_i h'
      exact ⟨by simpa using h', (Option.some.inj h).symm⟩
  obtain ⟨h0, rfl⟩ := hS
  rcases List.eq_nil_or_concat calls with rfl | ⟨l, T, rfl⟩
  · exact ⟨h0, rfl⟩
  · simp only [List.concat_eq_append, List.foldl_append, List.foldl_cons, List.foldl_nil]
    have := hc T (by simp) S
    exact ⟨this, by simp [exSetMethod]⟩

example : ((([heun, shu3] : List (Scheme ℚ)).foldl (fun U T => (exSetMethod U T).2) explicitEuler)).implicit = false :=
  (C216_scheme_explicit_partial explicitEuler explicitEuler (by simp [exConstruct, explicitEuler, oneStepTheta]) [heun, shu3]
    (by intro T hT U; simp at hT; rcases hT with rfl | rfl <;> rfl)).1

/-- **C216** is false of the code after a rejected call: `setMethod` throws for an implicit scheme but keeps it, and the next step (without any
message) does not satisfy the equations of that scheme. (Implicit Euler for `u' = -u`.) -/
theorem C216_scheme_explicit_false :
    (exSetMethod (explicitEuler : Scheme ℚ) implicitEuler).1 = true ∧
    (exSetMethod (explicitEuler : Scheme ℚ) implicitEuler).2 = implicitEuler ∧
    schemeResidual ⟨(exSetMethod (explicitEuler : Scheme ℚ) implicitEuler).2, 0, 1, .multiplyOperator0ByDT, 1⟩ demoReaction demoMass [(.uvVolume, 0)]
      (explicitApply (exSetMethod (explicitEuler : Scheme ℚ) implicitEuler).2 0 1 1 demoReaction demoMass demoMassJ (fun A b _ => b / A)
        [(.uvVolume, 0)] ⟨⟨0, 0, 0⟩, ⟨0, 0, 0⟩, 0, 0⟩ (fun _ => 1)).1 ≠ 0 := by
  refine ⟨by decide +kernel, rfl, ?_⟩
  decide +kernel

end Verif
