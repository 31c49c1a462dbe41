import Verif.Spec.GridFunctions
import Mathlib.Tactic.Ring
import Mathlib.Data.List.GetD
/-
Helpers for the properties of grid functions.
-/
namespace Verif.GridFunctions

open Spec

variable {K X T : Type} [Field K] [DecidableEq K]

/-- A list has these components. -/
def Has (y : List K) (d : Nat) (f : Nat → K) : Prop := y.length = d ∧ ∀ c < d, y[c]? = some (f c)

theorem has_map (y : List K) (d : Nat) (f : Nat → K) (g : K → K) (h : Has y d f) : Has (y.map g) d fun c => g (f c) := by
  refine ⟨by rw [List.length_map]; exact h.1, ?_⟩
  intro c hc
  rw [List.getElem?_map, h.2 c hc]
  rfl

theorem has_dot : ∀ (d : Nat) (y z : List K) (f g : Nat → K), Has y d f → Has z d g →
    dot y z = ((List.range d).map fun k => f k * g k).sum := by
  intro d
  induction d with
  | zero =>
    intro y z f g hy hz
    rw [List.eq_nil_of_length_eq_zero hy.1]
    rfl
  | succ d ih =>
    intro y z f g hy hz
    cases y with
    | nil => exact absurd hy.1 (by simp)
    | cons a as =>
      cases z with
      | nil => exact absurd hz.1 (by simp)
      | cons b bs =>
        have ha : a = f 0 := by simpa using hy.2 0 (by omega)
        have hb : b = g 0 := by simpa using hz.2 0 (by omega)
        rw [List.range_succ_eq_map, List.map_cons, List.sum_cons, List.map_map]
        show a * b + dot as bs = _
        rw [ha, hb, ih as bs (fun k => f (k + 1)) (fun k => g (k + 1)) ⟨by simpa using hy.1, fun c hc => by simpa using hy.2 (c + 1) (by omega)⟩
          ⟨by simpa using hz.1, fun c hc => by simpa using hz.2 (c + 1) (by omega)⟩]
        rfl

theorem has_sub (y z : List K) (d : Nat) (f g : Nat → K) (hy : Has y d f) (hz : Has z d g) :
    Has (List.zipWith (fun a b => a - b) y z) d fun c => f c - g c := by
  refine ⟨by rw [List.length_zipWith, hy.1, hz.1]; simp, ?_⟩
  intro c hc
  rw [List.getElem?_zipWith, hy.2 c hc, hz.2 c hc]

theorem has_select (y : List K) (d : Nat) (f : Nat → K) (h : Has y d f) : ∀ remap : List Nat, (∀ r ∈ remap, r < d) →
    ∃ z, remap.mapM (fun r => y[r]?) = some z ∧ Has z remap.length fun c => f (remap.getD c 0) := by
  intro remap
  induction remap with
  | nil => intro _; exact ⟨[], rfl, rfl, by simp⟩
  | cons r rs ih =>
    intro hr
    obtain ⟨z, h1, h2⟩ := ih fun r hr' => hr r (by simp [hr'])
    refine ⟨f r :: z, ?_, ?_, ?_⟩
    · rw [List.mapM_cons, h.2 r (hr r (by simp)), h1]
      rfl
    · simpa using h2.1
    · intro c hc
      cases c with
      | zero => simp
      | succ c => simpa using h2.2 c (by simpa using hc)

theorem has_zero (y : List K) (d : Nat) (f : Nat → K) (h : Has y d f) (hd : 0 < d) : y[0]? = some (f 0) := h.2 0 hd

theorem evaluate_main (value : Nat → T → X → List K) (root : K → K) (time : Nat → T) (x : X) (u : Nat → Nat → K) : ∀ (e : Expr K) (d : Nat),
    e.dimRange = some d → (∀ q ∈ leaves e, Has (value q.1 (time q.1) x) q.2 (u q.1)) →
    (Regular u root e → ∃ y, e.evaluate value root time x = some y ∧ Has y d (component u root e)) ∧
    (¬ Regular u root e → e.evaluate value root time x = none) := by
  intro e
  induction e with
  | leaf id d' =>
    intro d hd hl
    simp only [Expr.dimRange, Option.some.injEq] at hd
    subst hd
    exact ⟨fun _ => ⟨_, rfl, hl (id, d') (by simp [leaves])⟩, fun h => absurd trivial h⟩
  | const val =>
    intro d hd hl
    simp only [Expr.dimRange, Option.some.injEq] at hd
    subst hd
    refine ⟨fun _ => ⟨_, rfl, rfl, ?_⟩, fun h => absurd trivial h⟩
    intro c hc
    simp only [component]
    rw [List.getElem?_eq_getElem hc, List.getD_eq_getElem _ _ hc]
  | product a b iha ihb =>
    intro d hd hl
    simp only [Expr.dimRange, Option.bind_eq_bind, Option.bind_eq_some_iff] at hd
    obtain ⟨d1, h1, d2, h2, h3⟩ := hd
    obtain ⟨a1, a2⟩ := iha d1 h1 fun q hq => hl q (by simp [leaves, hq])
    obtain ⟨b1, b2⟩ := ihb d2 h2 fun q hq => hl q (by simp [leaves, hq])
    have hnone : ¬ Regular u root (.product a b) → (Expr.product a b).evaluate value root time x = none := by
      intro hr
      simp only [Expr.evaluate]
      simp only [Regular] at hr
      by_cases ha : Regular u root a
      · have hb := b2 fun hb => hr ⟨ha, hb⟩
        obtain ⟨y, hy, _⟩ := a1 ha
        simp only [hb, hy]
        split
        · rfl
        · split <;> rfl
      · have ha' := a2 ha
        by_cases hb : Regular u root b
        · obtain ⟨z, hz, _⟩ := b1 hb
          simp only [ha', hz]
          split
          · rfl
          · split <;> rfl
        · simp only [ha', b2 hb]
          split
          · rfl
          · split <;> rfl
    refine ⟨?_, hnone⟩
    rintro ⟨ha, hb⟩
    obtain ⟨y, hy, hy'⟩ := a1 ha
    obtain ⟨z, hz, hz'⟩ := b1 hb
    simp only [Expr.evaluate, h1, h2, Option.some.injEq, ne_eq, hy, hz]
    by_cases hd1 : d1 = 1
    · by_cases hd2 : d2 = 1
      · rw [if_neg (by omega), if_neg (by omega), if_pos (by omega)] at h3
        rw [if_neg (by omega), if_neg (by omega)]
        cases h3
        subst hd1 hd2
        refine ⟨_, rfl, rfl, ?_⟩
        intro c hc
        rw [show c = 0 by omega, has_dot 1 y z _ _ hy' hz']
        simp only [component, h1, h2, if_true]
        rfl
      · rw [if_pos ⟨hd1, hd2⟩] at h3
        cases h3
        subst hd1
        rw [if_neg (by omega), if_pos (by omega)]
        have hf : y[0]? = some (component u root a 0) := has_zero y 1 _ hy' (by omega)
        simp only [Option.bind_eq_bind, Option.bind_some, hf]
        refine ⟨_, rfl, ?_⟩
        have := has_map z d (component u root b) (fun v => v * component u root a 0) hz'
        refine ⟨this.1, ?_⟩
        intro c hc
        rw [this.2 c hc]
        simp only [component, h1, h2, Option.some.injEq, if_true]
        rw [if_neg fun h => hd2 h.symm, mul_comm]
    · by_cases hd2 : d2 = 1
      · rw [if_neg (by omega), if_pos ⟨hd1, hd2⟩] at h3
        cases h3
        subst hd2
        rw [if_pos (by omega)]
        have hf : z[0]? = some (component u root b 0) := has_zero z 1 _ hz' (by omega)
        simp only [Option.bind_eq_bind, Option.bind_some, hf]
        refine ⟨_, rfl, ?_⟩
        have := has_map y d (component u root a) (fun v => v * component u root b 0) hy'
        refine ⟨this.1, ?_⟩
        intro c hc
        rw [this.2 c hc]
        simp only [component, h1, h2, Option.some.injEq]
        rw [if_neg hd1, if_neg hd1]
      · rw [if_neg (by omega), if_neg (by omega)] at h3
        by_cases he : d1 = d2
        · rw [if_pos he] at h3
          cases h3
          subst he
          rw [if_neg (by omega), if_neg (by omega)]
          refine ⟨_, rfl, rfl, ?_⟩
          intro c hc
          rw [show c = 0 by omega, has_dot d1 y z _ _ hy' hz']
          simp only [component, h1, h2, if_true]
          rfl
        · rw [if_neg he] at h3
          cases h3
  | minus a b iha ihb =>
    intro d hd hl
    simp only [Expr.dimRange, Option.bind_eq_bind, Option.bind_eq_some_iff] at hd
    obtain ⟨d1, h1, d2, h2, h3⟩ := hd
    obtain ⟨a1, a2⟩ := iha d1 h1 fun q hq => hl q (by simp [leaves, hq])
    obtain ⟨b1, b2⟩ := ihb d2 h2 fun q hq => hl q (by simp [leaves, hq])
    by_cases he : d1 = d2
    · rw [if_pos he] at h3
      cases h3
      subst he
      refine ⟨?_, ?_⟩
      · rintro ⟨ha, hb⟩
        obtain ⟨y, hy, hy'⟩ := a1 ha
        obtain ⟨z, hz, hz'⟩ := b1 hb
        refine ⟨_, by simp only [Expr.evaluate, hy, hz]; rfl, has_sub y z _ _ _ hy' hz'⟩
      · intro hr
        simp only [Regular] at hr
        simp only [Expr.evaluate]
        by_cases ha : Regular u root a
        · rw [b2 fun hb => hr ⟨ha, hb⟩]
          obtain ⟨y, hy, _⟩ := a1 ha
          rw [hy]
          rfl
        · rw [a2 ha]
          rfl
    · rw [if_neg he] at h3
      cases h3
  | division a b iha ihb =>
    intro d hd hl
    simp only [Expr.dimRange, Option.bind_eq_bind, Option.bind_eq_some_iff] at hd
    obtain ⟨d1, h1, d2, h2, h3⟩ := hd
    obtain ⟨a1, a2⟩ := iha d1 h1 fun q hq => hl q (by simp [leaves, hq])
    obtain ⟨b1, b2⟩ := ihb d2 h2 fun q hq => hl q (by simp [leaves, hq])
    by_cases he : d2 = 1
    · rw [if_pos he] at h3
      cases h3
      subst he
      refine ⟨?_, ?_⟩
      · rintro ⟨ha, hb, h0⟩
        obtain ⟨y, hy, hy'⟩ := a1 ha
        obtain ⟨z, hz, hz'⟩ := b1 hb
        have hf : z[0]? = some (component u root b 0) := has_zero z 1 _ hz' (by omega)
        refine ⟨_, by simp only [Expr.evaluate, hy, hz, Option.bind_eq_bind, Option.bind_some, hf, if_neg h0]; rfl,
          has_map y d (component u root a) (fun v => v / component u root b 0) hy'⟩
      · intro hr
        simp only [Regular] at hr
        simp only [Expr.evaluate]
        by_cases ha : Regular u root a
        · obtain ⟨y, hy, _⟩ := a1 ha
          rw [hy]
          by_cases hb : Regular u root b
          · obtain ⟨z, hz, hz'⟩ := b1 hb
            have hf : z[0]? = some (component u root b 0) := has_zero z 1 _ hz' (by omega)
            have h0 : component u root b 0 = 0 := by
              by_contra h0
              exact hr ⟨ha, hb, h0⟩
            simp only [hz, Option.bind_eq_bind, Option.bind_some, hf, if_pos h0]
          · rw [b2 hb]
            rfl
        · rw [a2 ha]
          rfl
    · rw [if_neg he] at h3
      cases h3
  | inverse a iha =>
    intro d hd hl
    simp only [Expr.dimRange, Option.bind_eq_bind, Option.bind_eq_some_iff] at hd
    obtain ⟨d1, h1, h3⟩ := hd
    obtain ⟨a1, a2⟩ := iha d1 h1 fun q hq => hl q (by simp [leaves, hq])
    by_cases he : d1 = 1
    · rw [if_pos he] at h3
      cases h3
      subst he
      refine ⟨?_, ?_⟩
      · rintro ⟨ha, h0⟩
        obtain ⟨y, hy, hy'⟩ := a1 ha
        have hf : y[0]? = some (component u root a 0) := has_zero y 1 _ hy' (by omega)
        refine ⟨_, by simp only [Expr.evaluate, hy, Option.bind_eq_bind, Option.bind_some, hf, if_neg h0]; rfl, rfl, ?_⟩
        intro c hc
        rw [show c = 0 by omega]
        rfl
      · intro hr
        simp only [Regular] at hr
        simp only [Expr.evaluate]
        by_cases ha : Regular u root a
        · obtain ⟨y, hy, hy'⟩ := a1 ha
          have hf : y[0]? = some (component u root a 0) := has_zero y 1 _ hy' (by omega)
          have h0 : component u root a 0 = 0 := by
            by_contra h0
            exact hr ⟨ha, h0⟩
          simp only [hy, Option.bind_eq_bind, Option.bind_some, hf, if_pos h0]
        · rw [a2 ha]
          rfl
    · rw [if_neg he] at h3
      cases h3
  | sqr a iha =>
    intro d hd hl
    simp only [Expr.dimRange, Option.bind_eq_bind, Option.bind_eq_some_iff] at hd
    obtain ⟨d1, h1, h3⟩ := hd
    obtain ⟨a1, a2⟩ := iha d1 h1 fun q hq => hl q (by simp [leaves, hq])
    cases h3
    refine ⟨?_, ?_⟩
    · intro ha
      obtain ⟨y, hy, hy'⟩ := a1 ha
      refine ⟨_, by simp only [Expr.evaluate, hy]; rfl, rfl, ?_⟩
      intro c hc
      rw [show c = 0 by omega, has_dot d1 y y _ _ hy' hy']
      simp only [component, h1]
      rfl
    · intro hr
      simp only [Expr.evaluate, a2 hr]
      rfl
  | sqrt a iha =>
    intro d hd hl
    simp only [Expr.dimRange, Option.bind_eq_bind, Option.bind_eq_some_iff] at hd
    obtain ⟨d1, h1, h3⟩ := hd
    obtain ⟨a1, a2⟩ := iha d1 h1 fun q hq => hl q (by simp [leaves, hq])
    by_cases he : d1 = 1
    · rw [if_pos he] at h3
      cases h3
      subst he
      refine ⟨?_, ?_⟩
      · intro ha
        obtain ⟨y, hy, hy'⟩ := a1 ha
        have hf : y[0]? = some (component u root a 0) := has_zero y 1 _ hy' (by omega)
        refine ⟨_, by simp only [Expr.evaluate, hy]; rfl, by rw [List.length_set]; exact hy'.1, ?_⟩
        intro c hc
        rw [show c = 0 by omega, List.getElem?_set_self (by rw [hy'.1]; omega), List.getD_eq_getElem?_getD, hf]
        rfl
      · intro hr
        simp only [Expr.evaluate, a2 hr]
        rfl
    · rw [if_neg he] at h3
      cases h3
  | scaled f a iha =>
    intro d hd hl
    simp only [Expr.dimRange] at hd
    obtain ⟨a1, a2⟩ := iha d hd fun q hq => hl q (by simp [leaves, hq])
    refine ⟨?_, ?_⟩
    · intro ha
      obtain ⟨y, hy, hy'⟩ := a1 ha
      exact ⟨_, by simp only [Expr.evaluate, hy]; rfl, has_map y d (component u root a) (fun v => v * f) hy'⟩
    · intro hr
      simp only [Expr.evaluate, a2 hr]
      rfl
  | select remap a iha =>
    intro d hd hl
    simp only [Expr.dimRange, Option.bind_eq_bind, Option.bind_eq_some_iff] at hd
    obtain ⟨d1, h1, h3⟩ := hd
    obtain ⟨a1, a2⟩ := iha d1 h1 fun q hq => hl q (by simp [leaves, hq])
    by_cases he : (remap.all fun r => decide (r < d1)) = true
    · rw [if_pos he] at h3
      cases h3
      refine ⟨?_, ?_⟩
      · intro ha
        obtain ⟨y, hy, hy'⟩ := a1 ha
        obtain ⟨z, hz, hz'⟩ := has_select y d1 _ hy' remap (by simpa using he)
        exact ⟨z, by simp only [Expr.evaluate, hy]; exact hz, hz'⟩
      · intro hr
        simp only [Expr.evaluate, a2 hr]
        rfl
    · rw [if_neg he] at h3
      cases h3

omit [Field K] [DecidableEq K] in
theorem setTime_eq [Field K] (t : T) : ∀ (e : Expr K) (time : Nat → T) (i : Nat),
    ((∃ d, (i, d) ∈ leaves e) → e.setTime t time i = t) ∧ ((¬ ∃ d, (i, d) ∈ leaves e) → e.setTime t time i = time i) := by
  intro e
  induction e with
  | leaf id d =>
    intro time i
    simp only [leaves, Expr.setTime, List.mem_singleton, Prod.mk.injEq]
    refine ⟨fun ⟨_, h, _⟩ => if_pos h, fun h => if_neg fun h' => h ⟨d, h', rfl⟩⟩
  | const val => intro time i; simp [leaves, Expr.setTime]
  | product a b iha ihb =>
    intro time i
    exact two_operands a b (iha · i) (ihb · i)
  | minus a b iha ihb =>
    intro time i
    exact two_operands a b (iha · i) (ihb · i)
  | division a b iha ihb =>
    intro time i
    exact two_operands a b (iha · i) (ihb · i)
  | inverse a iha => exact iha
  | sqr a iha => exact iha
  | sqrt a iha => exact iha
  | scaled f a iha => exact iha
  | select r a iha => exact iha
where
  two_operands {t : T} {time : Nat → T} {i : Nat} (a b : Expr K)
      (iha : ∀ time : Nat → T, ((∃ d, (i, d) ∈ leaves a) → a.setTime t time i = t) ∧ ((¬ ∃ d, (i, d) ∈ leaves a) → a.setTime t time i = time i))
      (ihb : ∀ time : Nat → T, ((∃ d, (i, d) ∈ leaves b) → b.setTime t time i = t) ∧ ((¬ ∃ d, (i, d) ∈ leaves b) → b.setTime t time i = time i)) :
      ((∃ d, (i, d) ∈ leaves a ++ leaves b) → b.setTime t (a.setTime t time) i = t) ∧
      ((¬ ∃ d, (i, d) ∈ leaves a ++ leaves b) → b.setTime t (a.setTime t time) i = time i) := by
    refine ⟨?_, ?_⟩
    · rintro ⟨d, hd⟩
      by_cases hb : ∃ d, (i, d) ∈ leaves b
      · exact (ihb _).1 hb
      · rw [(ihb _).2 hb]
        rcases List.mem_append.mp hd with h | h
        · exact (iha _).1 ⟨d, h⟩
        · exact absurd ⟨d, h⟩ hb
    · intro h
      rw [(ihb _).2 fun ⟨d, hd⟩ => h ⟨d, by simp [hd]⟩, (iha _).2 fun ⟨d, hd⟩ => h ⟨d, by simp [hd]⟩]

theorem evaluate_congr (value : Nat → T → X → List K) (root : K → K) (x : X) : ∀ (e : Expr K) (time time' : Nat → T),
    (∀ q ∈ leaves e, time q.1 = time' q.1) → e.evaluate value root time x = e.evaluate value root time' x := by
  intro e
  induction e with
  | leaf id d => intro time time' h; simp only [Expr.evaluate]; rw [h (id, d) (by simp [leaves])]
  | const val => intro _ _ _; rfl
  | product a b iha ihb =>
    intro time time' h
    simp only [Expr.evaluate]
    rw [iha time time' fun q hq => h q (by simp [leaves, hq]), ihb time time' fun q hq => h q (by simp [leaves, hq])]
  | minus a b iha ihb =>
    intro time time' h
    simp only [Expr.evaluate]
    rw [iha time time' fun q hq => h q (by simp [leaves, hq]), ihb time time' fun q hq => h q (by simp [leaves, hq])]
  | division a b iha ihb =>
    intro time time' h
    simp only [Expr.evaluate]
    rw [iha time time' fun q hq => h q (by simp [leaves, hq]), ihb time time' fun q hq => h q (by simp [leaves, hq])]
  | inverse a iha =>
    intro time time' h
    simp only [Expr.evaluate]
    rw [iha time time' h]
  | sqr a iha =>
    intro time time' h
    simp only [Expr.evaluate]
    rw [iha time time' h]
  | sqrt a iha =>
    intro time time' h
    simp only [Expr.evaluate]
    rw [iha time time' h]
  | scaled f a iha =>
    intro time time' h
    simp only [Expr.evaluate]
    rw [iha time time' h]
  | select r a iha =>
    intro time time' h
    simp only [Expr.evaluate]
    rw [iha time time' h]

/-! ### Integration -/

omit [DecidableEq K] in
theorem rule_sum {L V : Type} [AddCommGroup V] [SMul K V] (f : L × K → V) : ∀ (l : List (L × K)) (s : V),
    l.foldl (fun s q => s + f q) s = s + (l.map f).sum := by
  intro l
  induction l with
  | nil => intro s; simp
  | cons q l ih => intro s; rw [List.foldl_cons, ih, List.map_cons, List.sum_cons, add_assoc]

omit [DecidableEq K] in
theorem integrate_eq {L V : Type} [AddCommGroup V] [SMul K V] (evaluate : Cell L K → L → V) (s : V) (cells : List (Cell L K)) :
    integrate cells evaluate s = ((cells.filter fun c => c.interior).map fun c =>
      (c.rule.map fun q => (q.2 * c.integrationElement q.1) • evaluate c q.1).sum).sum := by
  unfold integrate
  simp only
  have key : ∀ (l : List (Cell L K)) (s : V), l.foldl
      (fun sum c => c.rule.foldl (fun sum q => sum + (q.2 * c.integrationElement q.1) • evaluate c q.1) sum) s
      = s + (l.map fun c => (c.rule.map fun q => (q.2 * c.integrationElement q.1) • evaluate c q.1).sum).sum := by
    intro l
    induction l with
    | nil => intro s; simp
    | cons c l ih =>
      intro s
      rw [List.foldl_cons, ih, rule_sum (fun q => (q.2 * c.integrationElement q.1) • evaluate c q.1), List.map_cons, List.sum_cons, add_assoc]
  rw [key, zero_add]

/-! ### Probes -/

theorem foldl_min (l : List Nat) : ∀ n : Nat, (l.foldl min n ≤ n) ∧ (∀ a ∈ l, l.foldl min n ≤ a) ∧ (l.foldl min n = n ∨ l.foldl min n ∈ l) := by
  induction l with
  | nil => intro n; simp
  | cons b l ih =>
    intro n
    obtain ⟨h1, h2, h3⟩ := ih (min n b)
    rw [List.foldl_cons]
    refine ⟨by omega, ?_, ?_⟩
    · intro a ha
      rcases List.mem_cons.mp ha with rfl | ha
      · omega
      · exact h2 a ha
    · rcases h3 with h | h
      · rcases Nat.le_total n b with h' | h'
        · left; rw [h]; exact Nat.min_eq_left h'
        · right; rw [h, Nat.min_eq_right h']; simp
      · right; simp [h]

/-- The rank that evaluates. -/
def evalRank {E : Type} (found : List (Found E)) : Nat :=
  (found.zipIdx.map fun q => candidate found.length q.2 q.1).foldl min found.length

theorem evalRank_le {E : Type} (found : List (Found E)) (r : Nat) (e : E) (h : HasInterior found r e) : evalRank found ≤ r := by
  refine (foldl_min _ _).2.1 r ?_
  refine List.mem_map.mpr ⟨(some (e, true), r), List.mem_zipIdx_iff_getElem?.mpr h, rfl⟩

theorem evalRank_spec {E : Type} (found : List (Found E)) :
    (evalRank found = found.length ∧ ∀ r e, ¬ HasInterior found r e) ∨ (evalRank found < found.length ∧ ∃ e, HasInterior found (evalRank found) e) := by
  rcases Nat.lt_or_ge (evalRank found) found.length with h | h
  · right
    refine ⟨h, ?_⟩
    rcases (foldl_min (found.zipIdx.map fun q => candidate found.length q.2 q.1) found.length).2.2 with h' | h'
    · exact absurd h' (by unfold evalRank at h; omega)
    · obtain ⟨q, hq, hc⟩ := List.mem_map.mp h'
      have hq' := List.mem_zipIdx_iff_getElem?.mp hq
      rcases q with ⟨f, r⟩
      have hlt : candidate found.length r f ≠ found.length := by
        intro he
        simp only at hc
        unfold evalRank at h
        omega
      match f, hlt with
      | some (e, true), _ =>
        have : evalRank found = r := hc.symm
        exact ⟨e, by rw [this]; exact hq'⟩
      | some (_, false), hlt => exact absurd rfl hlt
      | none, hlt => exact absurd rfl hlt
  · left
    have hle : evalRank found ≤ found.length := (foldl_min _ _).1
    refine ⟨by omega, ?_⟩
    intro r e hr
    have h1 := evalRank_le found r e hr
    have h2 : r < found.length := by
      by_contra hge
      unfold HasInterior at hr
      rw [List.getElem?_eq_none (by omega)] at hr
      cases hr
    omega

end Verif.GridFunctions
