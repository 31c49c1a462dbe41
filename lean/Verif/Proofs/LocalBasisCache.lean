import Verif.Model.FiniteElements
import Mathlib.Algebra.Order.Field.Basic
import Mathlib.Tactic.Linarith
import Mathlib.Data.List.Lex
namespace Verif.FE

section Cache
variable {K : Type} [Field K] [LinearOrder K] [IsStrictOrderedRing K] {V J : Type}

theorem equivalent_iff (eps : K) (heps : 0 ≤ eps) (v w : List K) (hl : v.length = w.length) :
    ((!lessThan eps v w && !lessThan eps w v) = true) ↔ List.Forall₂ (fun x y => |x - y| ≤ eps) v w := by
  induction v generalizing w with
  | nil =>
    cases w with
    | nil => simp [lessThan]
    | cons y w => simp at hl
  | cons x v ih =>
    cases w with
    | nil => simp at hl
    | cons y w =>
      rw [List.forall₂_cons, ← ih w (by simpa using hl)]
      simp only [lessThan, abs_le]
      by_cases h1 : x < y - eps
      · have h1' : y > x + eps := by linarith
        have h2 : ¬ y < x - eps := by linarith
        simp only [h1, if_true]
        constructor
        · intro h; simp at h
        · rintro ⟨⟨h, _⟩, _⟩; linarith
      · by_cases h2 : y < x - eps
        · have h2' : x > y + eps := by linarith
          simp only [h1, h2, if_true, if_false]
          constructor
          · intro h; simp at h
          · rintro ⟨⟨_, h⟩, _⟩; linarith
        · have h3 : ¬ x > y + eps := by intro h; apply h2; linarith
          have h4 : ¬ y > x + eps := by intro h; apply h1; linarith
          simp only [h1, h2, h3, h4, if_false]
          constructor
          · intro h; exact ⟨⟨by linarith, by linarith⟩, h⟩
          · intro h; exact h.2

/-- On positions with equal or clearly different coordinates the comparison is the lexicographic order. -/
theorem lessThan_iff (eps : K) (heps : 0 ≤ eps) (v w : List K) (h : List.Forall₂ (fun x y => x = y ∨ eps < |x - y|) v w) :
    lessThan eps v w = true ↔ v < w := by
  induction h with
  | nil => simp [lessThan]
  | @cons x y v w hxy _ ih =>
    rw [List.cons_lt_cons_iff, ← ih, lessThan]
    rcases hxy with rfl | hxy
    · have h1 : ¬ x < x - eps := by linarith
      have h2 : ¬ x > x + eps := by linarith
      rw [if_neg h1, if_neg h2]
      simp
    · rcases lt_abs.1 hxy with h | h
      · have h1 : ¬ x < y - eps := by linarith
        have h2 : x > y + eps := by linarith
        have h3 : ¬ x < y := by linarith
        have h4 : x ≠ y := by intro h; subst h; linarith
        simp [h1, h2, h3, h4]
      · have h1 : x < y - eps := by linarith
        have h2 : x < y := by linarith
        simp [h1, h2]

/-- What the entries of a map are: values of the basis at positions asked for before. -/
def CacheOk (P : List K → Prop) (basis : List K → V) (c : Cache K V) : Prop := ∀ e ∈ c, P e.1 ∧ e.2 = basis e.1

theorem cacheEvaluate_spec (eps : K) (P : List K → Prop) (basis : List K → V) (c : Cache K V) (p : List K) (hc : CacheOk P basis c)
    (hp : P p) : (∃ q, P q ∧ ((!lessThan eps q p && !lessThan eps p q) = true ∨ q = p) ∧ (cacheEvaluate eps c p basis).1 = basis q) ∧
      CacheOk P basis (cacheEvaluate eps c p basis).2 := by
  unfold cacheEvaluate cacheFind
  cases h : c.find? fun e => !lessThan eps e.1 p && !lessThan eps p e.1 with
  | none =>
    simp only [Option.map_none]
    refine ⟨⟨p, hp, Or.inr rfl, rfl⟩, ?_⟩
    intro e he
    rcases List.mem_cons.1 he with rfl | he
    · exact ⟨hp, rfl⟩
    · exact hc e he
  | some e =>
    simp only [Option.map_some]
    have hm := List.mem_of_find?_eq_some h
    have hp' := List.find?_some h
    exact ⟨⟨e.1, (hc e hm).1, Or.inl hp', (hc e hm).2⟩, hc⟩

theorem cacheRun_spec (eps : K) (bf : List K → V) (bj : List K → J) (calls : List (CacheCall K V J)) :
    ∀ (s : LocalBasisCache K V J) (Pf Pj : List K → Prop), CacheOk Pf bf s.functions → CacheOk Pj bj s.jacobians →
    (∀ p b, CacheCall.function p b ∈ calls → b = bf) → (∀ p b, CacheCall.jacobian p b ∈ calls → b = bj) →
    ∀ i : Nat, (∀ p b, calls[i]? = some (.function p b) → ∃ q, (Pf q ∨ ∃ i' ≤ i, ∃ b', calls[i']? = some (.function q b')) ∧
        ((!lessThan eps q p && !lessThan eps p q) = true ∨ q = p) ∧ (cacheRun eps s calls)[i]? = some (.inl (bf q))) ∧
      (∀ p b, calls[i]? = some (.jacobian p b) → ∃ q, (Pj q ∨ ∃ i' ≤ i, ∃ b', calls[i']? = some (.jacobian q b')) ∧
        ((!lessThan eps q p && !lessThan eps p q) = true ∨ q = p) ∧ (cacheRun eps s calls)[i]? = some (.inr (bj q))) := by
  induction calls with
  | nil => intro s Pf Pj _ _ _ _ i; constructor <;> (intro p b h; simp at h)
  | cons c calls ih =>
    intro s Pf Pj hf hj hbf hbj i
    cases c with
    | function p b =>
      obtain rfl := hbf p b (by simp)
      have hsub : CacheOk (fun q => Pf q ∨ q = p) b s.functions := fun e he => ⟨Or.inl (hf e he).1, (hf e he).2⟩
      obtain ⟨⟨q, hq, hqp, hv⟩, hok⟩ := cacheEvaluate_spec eps (fun q => Pf q ∨ q = p) b s.functions p hsub (Or.inr rfl)
      cases i with
      | zero =>
        constructor
        · intro p' b' h
          simp only [List.getElem?_cons_zero, Option.some.injEq, CacheCall.function.injEq] at h
          obtain ⟨rfl, rfl⟩ := h
          refine ⟨q, ?_, hqp, ?_⟩
          · rcases hq with hq | rfl
            · exact Or.inl hq
            · exact Or.inr ⟨0, Nat.le_refl _, b, by simp⟩
          · rw [cacheRun, List.getElem?_cons_zero, cacheStep, ← hv]
        · intro p' b' h
          simp at h
      | succ i =>
        have := ih (cacheStep eps s (.function p b)).2 (fun q => Pf q ∨ q = p) Pj hok hj
          (fun p b h => hbf p b (List.mem_cons_of_mem _ h)) (fun p b h => hbj p b (List.mem_cons_of_mem _ h)) i
        constructor
        · intro p' b' h
          rw [List.getElem?_cons_succ] at h
          obtain ⟨q, h1, h2, h3⟩ := this.1 p' b' h
          refine ⟨q, ?_, h2, by rw [cacheRun, List.getElem?_cons_succ]; exact h3⟩
          rcases h1 with (h1 | rfl) | ⟨i', hi', b'', h1⟩
          · exact Or.inl h1
          · exact Or.inr ⟨0, Nat.zero_le _, b, by simp⟩
          · exact Or.inr ⟨i' + 1, by omega, b'', by rw [List.getElem?_cons_succ]; exact h1⟩
        · intro p' b' h
          rw [List.getElem?_cons_succ] at h
          obtain ⟨q, h1, h2, h3⟩ := this.2 p' b' h
          refine ⟨q, ?_, h2, by rw [cacheRun, List.getElem?_cons_succ]; exact h3⟩
          rcases h1 with h1 | ⟨i', hi', b'', h1⟩
          · exact Or.inl h1
          · exact Or.inr ⟨i' + 1, by omega, b'', by rw [List.getElem?_cons_succ]; exact h1⟩
    | jacobian p b =>
      obtain rfl := hbj p b (by simp)
      have hsub : CacheOk (fun q => Pj q ∨ q = p) b s.jacobians := fun e he => ⟨Or.inl (hj e he).1, (hj e he).2⟩
      obtain ⟨⟨q, hq, hqp, hv⟩, hok⟩ := cacheEvaluate_spec eps (fun q => Pj q ∨ q = p) b s.jacobians p hsub (Or.inr rfl)
      cases i with
      | zero =>
        constructor
        · intro p' b' h
          simp at h
        · intro p' b' h
          simp only [List.getElem?_cons_zero, Option.some.injEq, CacheCall.jacobian.injEq] at h
          obtain ⟨rfl, rfl⟩ := h
          refine ⟨q, ?_, hqp, ?_⟩
          · rcases hq with hq | rfl
            · exact Or.inl hq
            · exact Or.inr ⟨0, Nat.le_refl _, b, by simp⟩
          · rw [cacheRun, List.getElem?_cons_zero, cacheStep, ← hv]
      | succ i =>
        have := ih (cacheStep eps s (.jacobian p b)).2 Pf (fun q => Pj q ∨ q = p) hf hok
          (fun p b h => hbf p b (List.mem_cons_of_mem _ h)) (fun p b h => hbj p b (List.mem_cons_of_mem _ h)) i
        constructor
        · intro p' b' h
          rw [List.getElem?_cons_succ] at h
          obtain ⟨q, h1, h2, h3⟩ := this.1 p' b' h
          refine ⟨q, ?_, h2, by rw [cacheRun, List.getElem?_cons_succ]; exact h3⟩
          rcases h1 with h1 | ⟨i', hi', b'', h1⟩
          · exact Or.inl h1
          · exact Or.inr ⟨i' + 1, by omega, b'', by rw [List.getElem?_cons_succ]; exact h1⟩
        · intro p' b' h
          rw [List.getElem?_cons_succ] at h
          obtain ⟨q, h1, h2, h3⟩ := this.2 p' b' h
          refine ⟨q, ?_, h2, by rw [cacheRun, List.getElem?_cons_succ]; exact h3⟩
          rcases h1 with (h1 | rfl) | ⟨i', hi', b'', h1⟩
          · exact Or.inl h1
          · exact Or.inr ⟨0, Nat.zero_le _, b, by simp⟩
          · exact Or.inr ⟨i' + 1, by omega, b'', by rw [List.getElem?_cons_succ]; exact h1⟩

end Cache
end Verif.FE
