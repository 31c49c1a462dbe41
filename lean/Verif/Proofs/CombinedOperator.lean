import Verif.Spec.CombinedOperator
import Mathlib.Algebra.Field.Basic
/-
Helper lemmas about combined operators (C38, C39).
-/
namespace Verif.CombinedOperator

open Spec

variable {K : Type} [Field K]

mutual
theorem noFlag : (o : LOp K) → (f : Flag) → hasFlag o f = false → ∀ s, s ∈ summands o → s.2.2 f = false
  | .base id flag t, f, h => by
    intro s hs
    simp only [summands, List.mem_singleton] at hs
    subst hs
    simpa [hasFlag] using h
  | .sum ops, f, h => by
    simp only [hasFlag] at h
    simp only [summands]
    exact noFlagAll ops f h
  | .wsum ws ops, f, h => by
    simp only [hasFlag] at h
    simp only [summands]
    exact noFlagWeighted ws ops f h
theorem noFlagAll : (ops : List (LOp K)) → (f : Flag) → anyFlag ops f = false → ∀ s, s ∈ summandsAll ops → s.2.2 f = false
  | [], f, h => by simp [summandsAll]
  | o :: os, f, h => by
    simp only [anyFlag, Bool.or_eq_false_iff] at h
    intro s hs
    simp only [summandsAll, List.mem_append] at hs
    rcases hs with hs | hs
    · exact noFlag o f h.1 s hs
    · exact noFlagAll os f h.2 s hs
theorem noFlagWeighted : (ws : List K) → (ops : List (LOp K)) → (f : Flag) → anyFlag ops f = false →
    ∀ s, s ∈ summandsWeighted ws ops → s.2.2 f = false
  | [], [], f, h => by simp [summandsWeighted]
  | _ :: _, [], f, h => by simp [summandsWeighted]
  | [], _ :: _, f, h => by simp [summandsWeighted]
  | w :: ws, o :: os, f, h => by
    simp only [anyFlag, Bool.or_eq_false_iff] at h
    intro s hs
    simp only [summandsWeighted, List.mem_append, List.mem_map] at hs
    rcases hs with ⟨t, ht, rfl⟩ | hs
    · exact noFlag o f h.1 t ht
    · exact noFlagWeighted ws os f h.2 s hs
end

variable [DecidableEq K]

/-- The calls for a list of summands with weights. -/
def expectedOf (l : List (K × Nat × (Flag → Bool))) (m : Method) (args : List (Option K)) : List (Call K) :=
  (l.filter fun s => s.2.2 (switchFlag m) && decide (s.1 ≠ 0)).map fun s => ⟨s.2.1, m, scale s.1 args⟩

theorem expectedOf_append (l l' : List (K × Nat × (Flag → Bool))) (m : Method) (args : List (Option K)) :
    expectedOf (l ++ l') m args = expectedOf l m args ++ expectedOf l' m args := by simp [expectedOf]

theorem expectedOf_noFlag (l : List (K × Nat × (Flag → Bool))) (m : Method) (args : List (Option K))
    (h : ∀ s, s ∈ l → s.2.2 (switchFlag m) = false) : expectedOf l m args = [] := by
  unfold expectedOf
  rw [List.filter_eq_nil_iff.2]
  · rfl
  · intro s hs; simp [h s hs]

omit [DecidableEq K] in
theorem scale_scale (v w : K) (args : List (Option K)) : scale w (scale v args) = scale (v * w) args := by
  simp only [scale, List.map_map]
  refine List.map_congr_left ?_
  intro a _
  cases a <;> simp [mul_assoc]

theorem expectedOf_zero (l : List (K × Nat × (Flag → Bool))) (m : Method) (args : List (Option K)) :
    expectedOf (l.map fun s => (0 * s.1, s.2)) m args = [] := by
  unfold expectedOf
  rw [List.filter_eq_nil_iff.2]
  · rfl
  · intro s hs
    obtain ⟨t, _, rfl⟩ := List.mem_map.1 hs
    simp

theorem expectedOf_weight (l : List (K × Nat × (Flag → Bool))) (m : Method) (args : List (Option K)) (v : K) (hv : v ≠ 0) :
    expectedOf (l.map fun s => (v * s.1, s.2)) m args = expectedOf l m (scale v args) := by
  unfold expectedOf
  rw [List.filter_map, List.map_map]
  have : (l.filter ((fun s : K × Nat × (Flag → Bool) => s.2.2 (switchFlag m) && decide (s.1 ≠ 0)) ∘ fun s => (v * s.1, s.2))) =
      l.filter fun s => s.2.2 (switchFlag m) && decide (s.1 ≠ 0) := by
    refine List.filter_congr ?_
    intro s _
    simp [hv]
  rw [this]
  refine List.map_congr_left ?_
  intro s _
  simp [scale_scale]

/-- The same arguments carry weights. -/
def SameShape (a b : List (Option K)) : Prop := a.map Option.isSome = b.map Option.isSome

omit [Field K] [DecidableEq K] in
theorem setWeights_shape (ws : List K) (a : List (Option K)) (h : ws.length = a.length) : SameShape (setWeights ws a) a := by
  unfold SameShape setWeights
  induction a generalizing ws with
  | nil => cases ws <;> simp_all
  | cons x a ih =>
    cases ws with
    | nil => simp at h
    | cons w ws =>
      simp only [List.zipWith_cons_cons, List.map_cons]
      rw [ih ws (by simpa using h)]
      cases x <;> rfl

omit [DecidableEq K] in
theorem setWeights_scaled (a b : List (Option K)) (v : K) (h : SameShape b a) :
    setWeights ((getWeights a).map (· * v)) b = scale v a := by
  unfold SameShape at h
  unfold setWeights getWeights scale
  induction a generalizing b with
  | nil => cases b <;> simp_all
  | cons x a ih =>
    cases b with
    | nil => simp at h
    | cons y b =>
      simp only [List.map_cons, List.cons.injEq] at h
      simp only [List.map_cons, List.zipWith_cons_cons]
      rw [ih b h.2]
      cases x <;> cases y <;> simp_all

omit [DecidableEq K] in
theorem setWeights_restore (a b : List (Option K)) (h : SameShape b a) : setWeights (getWeights a) b = a := by
  have := setWeights_scaled a b 1 h
  simp only [mul_one, List.map_id'] at this
  rw [this]
  simp [scale]

omit [DecidableEq K] in
theorem scale_shape (v : K) (a : List (Option K)) : SameShape (scale v a) a := by
  simp [SameShape, scale]

theorem combinedCall_sound (m : Method) (h : sound m = true) : combinedCall m = (m, switchArity m) := by
  cases m <;> first | rfl | simp [sound] at h

theorem switchFlag_eq (m : Method) : switchFlag m = controls m := by cases m <;> rfl

mutual
theorem call_spec : (o : LOp K) → (m : Method) → (st : St K) → sound m = true → hasFlag o (switchFlag m) = true →
    call o m st = some ⟨st.weights, st.log ++ expectedOf (summands o) m st.weights⟩
  | .base id flag t, m, st, hm, hf => by
    simp only [hasFlag] at hf
    simp only [call, summands, expectedOf]
    simp [hf, scale]
  | .sum ops, m, st, hm, _ => by
    simp only [call, combinedCall_sound m hm, if_true, summands]
    exact callAll_spec ops m st hm
  | .wsum ws ops, m, st, hm, _ => by
    simp only [call, combinedCall_sound m hm, if_true, summands]
    obtain ⟨st', h1, h2, h3⟩ := callWeighted_spec ops ws st.weights m st hm rfl
    rw [h1]
    dsimp only
    rw [setWeights_restore _ _ h2, h3]
theorem callAll_spec : (ops : List (LOp K)) → (m : Method) → (st : St K) → sound m = true →
    callAll ops m st = some ⟨st.weights, st.log ++ expectedOf (summandsAll ops) m st.weights⟩
  | [], m, st, hm => by simp [callAll, summandsAll, expectedOf]
  | o :: os, m, st, hm => by
    simp only [callAll, summandsAll, expectedOf_append]
    by_cases hf : hasFlag o (switchFlag m) = true
    · rw [if_pos hf, call_spec o m st hm hf]
      dsimp only
      rw [callAll_spec os m _ hm]
      simp
    · rw [if_neg hf]
      dsimp only
      rw [callAll_spec os m _ hm, expectedOf_noFlag (summands o) m _ (noFlag o _ (by simpa using hf))]
      simp
theorem callWeighted_spec : (ops : List (LOp K)) → (ws : List K) → (args : List (Option K)) → (m : Method) → (st : St K) → sound m = true →
    SameShape st.weights args → ∃ st', callWeighted ops ws (getWeights args) m st = some st' ∧ SameShape st'.weights args ∧
      st'.log = st.log ++ expectedOf (summandsWeighted ws ops) m args
  | [], ws, args, m, st, hm, hs => by
    refine ⟨st, by simp [callWeighted], hs, ?_⟩
    cases ws <;> simp [summandsWeighted, expectedOf]
  | o :: os, [], args, m, st, hm, hs => ⟨st, by simp [callWeighted], hs, by simp [summandsWeighted, expectedOf]⟩
  | o :: os, w :: ws, args, m, st, hm, hs => by
    simp only [callWeighted, summandsWeighted, expectedOf_append]
    by_cases hw : w = 0
    · subst hw
      rw [if_pos rfl]
      dsimp only
      obtain ⟨st', h1, h2, h3⟩ := callWeighted_spec os ws args m st hm hs
      exact ⟨st', h1, h2, by rw [h3, expectedOf_zero]; simp⟩
    · rw [if_neg hw, setWeights_scaled args st.weights w hs, expectedOf_weight _ _ _ _ hw]
      by_cases hf : hasFlag o (switchFlag m) = true
      · rw [if_pos hf, call_spec o m _ hm hf]
        dsimp only
        obtain ⟨st', h1, h2, h3⟩ := callWeighted_spec os ws args m ⟨scale w args, st.log ++ expectedOf (summands o) m (scale w args)⟩ hm
          (scale_shape w args)
        exact ⟨st', h1, h2, by rw [h3]; simp⟩
      · rw [if_neg hf]
        dsimp only
        obtain ⟨st', h1, h2, h3⟩ := callWeighted_spec os ws args m ⟨scale w args, st.log⟩ hm (scale_shape w args)
        refine ⟨st', h1, h2, ?_⟩
        rw [h3, expectedOf_noFlag (summands o) m _ (noFlag o _ (by simpa using hf))]
        simp
end

theorem xor_count (l : List Bool) (d : Bool) : l.foldl (fun d a => Bool.xor d a) d = Bool.xor d (l.count true % 2 == 1) := by
  induction l generalizing d with
  | nil => simp
  | cons a l ih =>
    rw [List.foldl_cons, ih]
    cases a
    · simp
    · simp only [List.count_cons_self]
      rcases Nat.mod_two_eq_zero_or_one (l.count true) with h | h
      · rw [h, show (l.count true + 1) % 2 = 1 by omega]; cases d <;> rfl
      · rw [h, show (l.count true + 1) % 2 = 0 by omega]; cases d <;> rfl

end Verif.CombinedOperator
