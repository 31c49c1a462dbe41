import Verif.Proofs.ScaledOperator
/-
Properties of scaled local operators.
-/
namespace Verif

open ScaledOperator ScaledOperator.Spec
open CombinedOperator (Method Call Flag)

variable {K : Type} [CommRing K] [DecidableEq K]

/-! ### C195: scaled local operators -/

/-- C195. A call of a method of a scaled operator adds the contribution of the operator, multiplied with the factor (and with the weight of the
argument), to what was there before. This holds for all methods and for operators that are scaled several times. -/
theorem C195_result {ι : Type} (h : Heap K) (n id u : Nat) (f : K) (hs : Scales h n id f u) (m : Method) (ws : List (Option K))
    (contribution : Nat → Method → Nat → ι → K) (r : Nat → ι → K) :
    ∃ log, ScaledOperator.call h n id m ws = some log ∧
      (∀ (a : Nat) (w : K), ws[a]? = some (some w) → ∀ e, accumulated contribution log r a e = r a e + f * (w * contribution u m a e)) := by
  rcases call_cases hs m ws with ⟨h1, h2⟩ | h1
  · refine ⟨_, h1, fun a w _ e => ?_⟩
    simp [accumulated, h2]
  · refine ⟨_, h1, fun a w hw e => ?_⟩
    simp only [accumulated, List.getD_eq_getElem?_getD, List.getElem?_map, hw, Option.map_some, Option.getD_some]
    ring

/-- C195. The methods of the operator are called once if the factor is not zero, and not at all if it is. -/
theorem C195_calls [NoZeroDivisors K] [Nontrivial K] (h : Heap K) (n id u : Nat) (f : K) (hs : Scales h n id f u) (m : Method)
    (ws : List (Option K)) :
    (f = 0 → ScaledOperator.call h n id m ws = some []) ∧
      (f ≠ 0 → ∃ c, ScaledOperator.call h n id m ws = some [c] ∧ c.id = u ∧ c.method = m ∧ c.weights.length = ws.length ∧
        ∀ (a : Nat) (w : K), ws[a]? = some (some w) → c.weights[a]? = some (some (f * w))) := by
  constructor
  · intro hf
    induction hs generalizing ws m with
    | user u => exact absurd hf one_ne_zero
    | @scaled n id b u f hb _ ih =>
      by_cases h0 : (h (n + 1) id).factor = 0
      · simp [ScaledOperator.call, h0]
      · have hf' : f = 0 := (mul_eq_zero.mp hf).resolve_left h0
        simp only [ScaledOperator.call, ne_eq, h0, not_false_eq_true, if_true, hb]
        exact ih _ _ hf'
  · intro hf
    rcases call_cases hs m ws with ⟨_, h2⟩ | h1
    · exact absurd h2 hf
    · exact ⟨_, h1, rfl, rfl, by simp, fun a w hw => by simp [hw]⟩

/-- C195. The entries of the matrix written by the Jacobian of the scaled operator are among those it announced for the sparsity pattern, if the
unscaled operator has this property, and if the factor was not zero when the pattern was assembled, or is zero now. `h` are the operators when the
pattern was assembled, `h'` when the Jacobian is assembled. -/
theorem C195_pattern_partial {ι : Type} (h h' : Heap K) (n id u : Nat) (f f' : K) (hs : Scales h n id f u) (hs' : Scales h' n id f' u)
    (entries : Nat → Method → List ι) (mp mj : Method) (hu : ∀ e ∈ entries u mj, e ∈ entries u mp) (ws ws' : List (Option K))
    [NoZeroDivisors K] [Nontrivial K] (hf : f = 0 → f' = 0) :
    ∃ pattern jacobian, ScaledOperator.call h n id mp ws = some pattern ∧ ScaledOperator.call h' n id mj ws' = some jacobian ∧
      ∀ e, touched entries jacobian e → touched entries pattern e := by
  by_cases h0 : f' = 0
  · obtain ⟨log, hlog, _⟩ := C195_result h n id u f hs mp ws (fun _ _ _ (_ : ι) => (0 : K)) (fun _ _ => 0)
    refine ⟨log, [], hlog, (C195_calls h' n id u f' hs' mj ws').1 h0, ?_⟩
    rintro e ⟨c, hc, _⟩
    cases hc
  · obtain ⟨c, hc, h1, h2, _⟩ := (C195_calls h n id u f hs mp ws).2 fun hz => h0 (hf hz)
    obtain ⟨c', hc', h1', h2', _⟩ := (C195_calls h' n id u f' hs' mj ws').2 h0
    refine ⟨_, _, hc, hc', ?_⟩
    rintro e ⟨d, hd, he⟩
    rw [List.mem_singleton] at hd
    subst hd
    rw [h1', h2'] at he
    exact ⟨c, by simp, by rw [h1, h2]; exact hu e he⟩

/-- C195. If the factor is zero when the pattern is assembled, as it is by default, and is changed by `setFactor` afterwards, then the Jacobian
writes to entries that are not in the pattern. -/
theorem C195_pattern_false : ∃ (h : Heap Int) (n id u : Nat) (f : Int) (entries : Nat → Method → List Nat),
    Scales h n id 0 u ∧ (∀ e ∈ entries u .jacobianVolume, e ∈ entries u .patternVolume) ∧
      ∃ pattern jacobian, ScaledOperator.call h n id .patternVolume [none] = some pattern ∧
        ScaledOperator.call (ScaledOperator.step h (.setFactor n id f)) n id .jacobianVolume [some 1] = some jacobian ∧
        ∃ e, touched entries jacobian e ∧ ¬ touched entries pattern e := by
  refine ⟨fun _ _ => ⟨0, some 0⟩, 1, 0, 0, 2, fun _ _ => [7], ?_, fun e he => he, [], [⟨0, .jacobianVolume, [some 2]⟩], rfl, by decide, 7, ?_, ?_⟩
  · simpa using Scales.scaled (h := fun _ _ => (⟨0, some 0⟩ : Scaled Int)) (n := 0) (id := 0) rfl (Scales.user 0)
  · exact ⟨⟨0, .jacobianVolume, [some 2]⟩, by simp, by simp⟩
  · rintro ⟨c, hc, _⟩
    cases hc

/-- C195. Without a backend, operators with a factor that is not zero must not be used. -/
theorem C195_backend (h : Heap K) (n id : Nat) (hb : (h (n + 1) id).bp = none) (m : Method) (ws : List (Option K)) :
    ScaledOperator.call h (n + 1) id m ws = if (h (n + 1) id).factor = 0 then some [] else none := by
  by_cases h0 : (h (n + 1) id).factor = 0 <;> simp [ScaledOperator.call, h0, hb]

omit [DecidableEq K] in
/-- C195. The time and the stage of the scaled operator are those of the operator, whatever the factor is: calls reach the operator unchanged, and
its answers are returned. -/
theorem C195_instationary {T A : Type} (h : Heap K) (n id u : Nat) (f : K) (hs : Scales h n id f u) (i : Inst T) (answer : Nat → A) :
    instationary h n id i = some (u, i) ∧ query h answer n id = some (answer u) := by
  induction hs with
  | user u => exact ⟨rfl, rfl⟩
  | scaled hb _ ih =>
    simp only [instationary, query, hb]
    exact ih

omit [DecidableEq K] in
/-- C195. After setting the factor of an operator, it scales with the new factor; other operators that do not contain it are not affected. -/
theorem C195_setFactor (h : Heap K) (n id b u : Nat) (f g : K) (hb : (h (n + 1) id).bp = some b) (hs : Scales h n b f u) :
    Scales (ScaledOperator.step h (.setFactor (n + 1) id g)) (n + 1) id (g * f) u ∧
      ∀ id' f' u', id' ≠ id → Scales h (n + 1) id' f' u' → Scales (ScaledOperator.step h (.setFactor (n + 1) id g)) (n + 1) id' f' u' := by
  have below : ∀ k i f' u', k ≤ n → Scales h k i f' u' → Scales (ScaledOperator.step h (.setFactor (n + 1) id g)) k i f' u' := by
    intro k i f' u' hk hs
    induction hs with
    | user u => exact .user u
    | @scaled k i b u f hb _ ih =>
      have e : ScaledOperator.step h (.setFactor (n + 1) id g) (k + 1) i = h (k + 1) i := by
        simp only [ScaledOperator.step, put]
        rw [if_neg (by omega)]
      rw [← e]
      exact .scaled (by rw [e]; exact hb) (ih (by omega))
  constructor
  · have e : ScaledOperator.step h (.setFactor (n + 1) id g) (n + 1) id = ⟨g, some b⟩ := by
      simp [ScaledOperator.step, put, hb]
    have := Scales.scaled (h := ScaledOperator.step h (.setFactor (n + 1) id g)) (n := n) (id := id) (b := b) (by rw [e])
      (below n b f u (Nat.le_refl _) hs)
    rw [e] at this
    exact this
  · intro id' f' u' hne hs'
    cases hs' with
    | @scaled _ _ b' _ f'' hb' hs' =>
      have e : ScaledOperator.step h (.setFactor (n + 1) id g) (n + 1) id' = h (n + 1) id' := by
        simp only [ScaledOperator.step, put]
        rw [if_neg (by tauto)]
      rw [← e]
      exact .scaled (by rw [e]; exact hb') (below n b' _ u' (Nat.le_refl _) hs')

/-- C195. The flags the class has are those of the backend. -/
theorem C195_flags (backend : FlagName → Bool) (f : FlagName) (v : Bool) (hf : flagValue backend f = some v) : v = backend f := by
  cases f <;> simp_all [flagValue]

/-- C195. A grid operator cannot be created with a scaled operator: some of the flags its local assembler uses are missing. -/
theorem C195_grid_operator_false (backend : FlagName → Bool) : ∃ f, usedByAssembler f = true ∧ flagValue backend f = none :=
  ⟨.isLinear, rfl, rfl⟩

/-! An operator scaled with 2 and then with 3. -/

/-- The objects: number 0 of level 1 and number 0 of level 2. -/
def scaledTwice : Heap Int := fun l _ => if l = 1 then ⟨2, some 5⟩ else ⟨3, some 0⟩

example : Scales scaledTwice 2 0 6 5 :=
  Scales.scaled (h := scaledTwice) (n := 1) (id := 0) rfl (Scales.scaled (h := scaledTwice) (n := 0) (id := 0) rfl (Scales.user 5))

example : ScaledOperator.call scaledTwice 2 0 .alphaSkeleton [none, some 10, some 1] = some [⟨5, .alphaSkeleton, [none, some 60, some 6]⟩] := by
  decide

example : accumulated (fun _ _ _ (_ : Unit) => (4 : Int)) [⟨5, .alphaSkeleton, [none, some 60, some 6]⟩] (fun _ _ => 1) 1 () = 241 := by decide

end Verif
