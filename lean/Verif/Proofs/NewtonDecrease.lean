import Verif.Proofs.Newton
import Mathlib.Tactic.NormNum
import Mathlib.Tactic.Ring
/-
The defects of the Newton solver decrease.
-/
namespace Verif.Newton

open Spec

variable {K X : Type} [Field K] [LinearOrder K] [IsStrictOrderedRing K] [AddCommGroup X] [Module K X]

/-- A successful line search above the absolute limit decreases a positive defect. -/
theorem outcome_decrease {P : Problem K X} {abs : K} {n : Nat} {damping : K} {best : Bool} {x c x' : X} {d' : Option K} {ok : Prop}
    (h : LineSearchOutcome P.defect abs n damping best x c x' d' ok) (hok : ok) {d : K} (hd : P.defect x = some d) (hpos : 0 < d)
    (hdamp : 0 < damping) (habs : ¬ Lt (P.defect x) (some abs)) : Lt d' (some d) := by
  rcases h.success hok with ⟨h1, _⟩ | ⟨k, _, _, h1, _⟩ | ⟨_, _, k, _, _, h1, _⟩
  · exact absurd h1 habs
  · rw [hd] at h1
    obtain ⟨a, b, ha, hb, hab⟩ := h1
    rw [Option.map_some, Option.some.injEq] at hb
    refine ⟨a, d, ha, rfl, lt_of_le_of_lt hab ?_⟩
    rw [← hb]
    have hp : 0 < damping ^ k := pow_pos hdamp k
    have : 0 < damping ^ k / 4 * d := mul_pos (div_pos hp (by norm_num)) hpos
    have e : (1 - damping ^ k / 4) * d = d - damping ^ k / 4 * d := by ring
    rw [e]
    exact sub_lt_self d this
  · rwa [hd] at h1

/-- What is kept by the loop: nothing happened yet, or the defect is below the first one. -/
def Lower (P : Problem K X) (x₀ : X) (f : K) (s : State K X) : Prop :=
  (s.result.iterations = 0 ∧ s.solution = x₀) ∨ (1 ≤ s.result.iterations ∧ Lt (P.defect s.solution) (some f))

theorem loop_lower (P : Problem K X) (q : Params K) (m : Nat) (damping : K) (best : Bool) (hls : q.lineSearch = .hackbuschReusken m damping best)
    (h0 : 0 < damping) (h1 : damping ≠ 1) (habs : 0 < q.absoluteLimit) (hforce : q.forceIteration = false) (x₀ : X) (f : K)
    (hf : P.defect x₀ = some f) : ∀ (n : Nat) (s : State K X), s.result.converged = false → s.result.defect = P.defect s.solution →
      Lower P x₀ f s → Lower P x₀ f (loop P q n s).1
  | 0, s, _, _, h => h
  | n + 1, s, hun, hdef, h => by
    unfold loop
    rcases terminate_cases q s.result hun with ⟨e, ht, he, hm⟩ | ⟨ht, hc, hf'⟩ | ⟨ht, hlt⟩
    · rw [ht]; exact h
    · rw [ht]; exact h
    · have hcrit := not_criterion q s.result hun ht
      rw [ht]
      dsimp only
      split
      · rename_i s' hp
        obtain ⟨e1, e2, -, -, -⟩ := prepareStep_fields P q _ _ (Or.inr hp)
        dsimp only at e1 e2
        unfold Lower at h ⊢
        dsimp only
        rw [e1, e2]
        exact h
      · rename_i s' hp
        obtain ⟨e1, e2, -, -, -⟩ := prepareStep_fields P q _ _ (Or.inl hp)
        dsimp only at e1 e2
        have hl : Lower P x₀ f s' := by
          unfold Lower at h ⊢
          rw [e1, e2]
          exact h
        have hd : s'.result.defect = P.defect s'.solution := by rw [e2, e1]; exact hdef
        split
        · exact hl
        · generalize hc : (P.solve (s'.jacobian.getD none) s'.solution (linearReduction q s'.result s'.previousDefect)).2.1 = c
          have hspec := hackbuschReusken_spec P q.absoluteLimit m damping best s'.solution c h0 h1
          rw [← hd] at hspec
          have heq : lineSearch P q ⟨s'.solution, s'.result.defect⟩ c =
              hackbuschReusken P q.absoluteLimit m damping best ⟨s'.solution, s'.result.defect⟩ c := by
            unfold lineSearch
            rw [hls]
          rw [← heq] at hspec
          revert hspec
          generalize lineSearch P q ⟨s'.solution, s'.result.defect⟩ c = ls
          intro hspec
          dsimp only at hspec
          split
          · rename_i e he
            obtain ⟨hx, _⟩ := hspec.failure (by rw [he]; simp)
            unfold Lower at hl ⊢
            dsimp only
            rw [hx]
            exact hl
          · rename_i he
            refine loop_lower P q m damping best hls h0 h1 habs hforce x₀ f hf n _ ?_ ?_ ?_
            · dsimp only; rw [e2]; exact hun
            · exact hspec.consistent
            · right
              refine ⟨Nat.le_add_left _ _, ?_⟩
              dsimp only
              rw [← hspec.consistent]
              -- the defect before the step is a number, at most the first one, and not below the limit
              have hb : ∃ d, P.defect s'.solution = some d ∧ d ≤ f := by
                rcases hl with ⟨_, hl⟩ | ⟨_, a, b, ha, hb, hab⟩
                · exact ⟨f, by rw [hl, hf], le_refl f⟩
                · cases hb
                  exact ⟨a, ha, hab.le⟩
              obtain ⟨d, hd', hdf⟩ := hb
              have hnl : ¬ Lt (P.defect s'.solution) (some q.absoluteLimit) := by
                rcases hcrit with ⟨hc, _⟩ | hc
                · rw [hforce] at hc; cases hc
                · intro hlt
                  apply hc
                  left
                  rw [hdef, ← e1]
                  exact hlt
              have hpos : 0 < d := by
                by_contra hn
                exact hnl ⟨d, _, hd', rfl, lt_of_le_of_lt (not_lt.1 hn) habs⟩
              obtain ⟨a, b, ha, hb, hab⟩ := outcome_decrease hspec he hd' hpos h0 hnl
              cases hb
              exact ⟨a, f, ha, rfl, lt_of_lt_of_le hab hdf⟩

end Verif.Newton
