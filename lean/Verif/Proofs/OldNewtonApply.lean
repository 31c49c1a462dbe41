import Verif.Proofs.OldNewtonLoop
/-
Helper lemmas for `apply` of the deprecated Newton solver.
-/
namespace Verif.OldNewton

open Verif.Newton (ltF leF ratioGt)
open Verif.Newton.Spec (Lt Le Sufficient)
open Spec

variable {K X : Type} [Field K] [LinearOrder K] [AddCommGroup X] [Module K X]

theorem loop_inl {P : Problem K X} {q : Params K} {hn : Bool} {hp : Option Bool} {n : Nat} {s : State K X} {o}
    (h : iter P q hn hp s = .inl o) : loop P q hn hp (n + 1) s = o := by
  unfold loop
  rw [h]

theorem loop_inr {P : Problem K X} {q : Params K} {hn : Bool} {hp : Option Bool} {n : Nat} {s s' : State K X}
    (h : iter P q hn hp s = .inr s') : loop P q hn hp (n + 1) s = loop P q hn hp n s' := by
  conv_lhs => unfold loop
  rw [h]

/-- The loop ends in a good state, if it ends. -/
theorem loop_exit (P : Problem K X) (q : Params K) (hn : Bool) (hi : Idempotent P) (kept : Option X) (first : Option K) :
    ∀ (n : Nat) (s : State K X), Inv P q hn kept first s →
      (loop P q hn (some hn) n s).2 ≠ some .outOfFuel →
        Exit P q hn kept first (loop P q hn (some hn) n s).1 (loop P q hn (some hn) n s).2 := by
  intro n
  induction n with
  | zero => intro s _ h; exact absurd rfl h
  | succ n ih =>
    intro s hs h
    obtain ⟨f1, f2⟩ := iter_spec P q hn hi kept first s hs
    rcases hit : iter P q hn (some hn) s with ⟨s', e⟩ | s'
    · rw [loop_inl hit]
      exact (f1 s' e hit).1
    · rw [loop_inr hit] at h ⊢
      exact ih s' (f2 s' hit).1 h

section
variable [IsStrictOrderedRing K]

theorem ratio_same {d : Option K} {a t : K} (hd : d ≠ none) (ha : 0 < a) (hl : ¬ Lt d (some a)) (ht : t < 1) : ratioGt d d t = true := by
  rcases d with _ | d
  · exact absurd rfl hd
  · have h1 : 0 < d := by
      by_contra h
      exact hl ⟨d, a, rfl, rfl, lt_of_le_of_lt (not_lt.1 h) ha⟩
    unfold ratioGt
    dsimp only
    rw [if_neg h1.ne', div_self h1.ne']
    exact decide_eq_true ht

/-- The loop ends, with at most two linear solves for each iteration. -/
theorem loop_ends (P : Problem K X) (q : Params K) (hn : Bool) (hi : Idempotent P) (kept : Option X) (first : Option K)
    (ht : q.reassembleThreshold < 1) (ha : 0 < q.absLimit) :
    ∀ (n : Nat) (s : State K X), Inv P q hn kept first s →
      ((solves s.log ≤ 2 * s.result.iterations ∧ s.result.iterations ≤ bound q ∧ 2 * (bound q - s.result.iterations) + 1 ≤ n) ∨
        (solves s.log ≤ 2 * s.result.iterations + 1 ∧ s.result.iterations < bound q ∧ 2 * (bound q - s.result.iterations) ≤ n ∧
          s.prevDefect = s.result.defect ∧ ¬ Lt s.result.defect (some q.absLimit))) →
      (loop P q hn (some hn) n s).2 ≠ some .outOfFuel ∧ solves (loop P q hn (some hn) n s).1.log ≤ 2 * bound q ∧
      (loop P q hn (some hn) n s).1.result.iterations ≤ bound q := by
  intro n
  induction n with
  | zero => intro s _ h; omega
  | succ n ih =>
    intro s hs h
    obtain ⟨f1, f2⟩ := iter_spec P q hn hi kept first s hs
    rcases hit : iter P q hn (some hn) s with ⟨s', e⟩ | s'
    · rw [loop_inl hit]
      obtain ⟨g1, g2, g3, _⟩ := f1 s' e hit
      refine ⟨g1.errors.1, ?_, ?_⟩
      · dsimp only
        rcases h with ⟨h1, h2, h3⟩ | ⟨h1, h2, h3, h4, h5⟩ <;> rcases g2 with g2 | ⟨g2, g2'⟩ <;> omega
      · dsimp only
        rw [g3]
        rcases h with ⟨h1, h2, h3⟩ | ⟨h1, h2, h3, h4, h5⟩ <;> omega
    · rw [loop_inr hit]
      obtain ⟨g1, g2, g3⟩ := f2 s' hit
      apply ih s' g1
      rcases g3 with g3 | g3
      · left
        have e1 := g3.its
        have e2 := g3.solves
        rcases h with ⟨h1, h2, h3⟩ | ⟨h1, h2, h3, h4, h5⟩ <;> omega
      · right
        have e1 : s'.result.iterations = s.result.iterations := by rw [g3.its]
        have e2 := g3.solves
        have e3 : s'.result.defect = s.result.defect := by rw [g3.its]
        rw [e1, e3]
        have e4 := g3.prev
        rw [e3] at e4
        rcases h with ⟨h1, h2, h3⟩ | ⟨h1, h2, h3, h4, h5⟩
        · exact ⟨by omega, g2, by omega, e4, g3.failed.2⟩
        · have := g3.old
          rw [h4, ratio_same hs.fin ha h5 ht] at this
          exact absurd this (by simp)

/-- A line search that succeeds other than by a full step decreases the defect. -/
theorem decrease {P : Problem K X} {q : Params K} {hn : Bool} {x z x' : X} {d' : Option K} {d : K}
    (h : LineSearchOutcome P q hn x z x' d' none) (hd : P.norm q.useMaxNorm x = some d) (hpos : 0 < d) (hdamp : 0 < q.dampingFactor)
    (hs : q.strategy ≠ .noLineSearch) (hl : ¬ Lt (P.norm q.useMaxNorm x) (some q.absLimit)) : Lt d' (some d) := by
  obtain ⟨_, h | ⟨_, k, _, _, h, _⟩ | ⟨_, _, k, _, _, h, _⟩⟩ := h.success rfl
  · exact absurd h.1 (by rintro (h | h); exacts [hs h, hl h])
  · obtain ⟨a, b, ha, hb, hab⟩ := h
    rw [hd] at hb
    simp only [Option.map_some, Option.some.injEq] at hb
    refine ⟨a, d, ha, rfl, ?_⟩
    have hp : 0 < q.dampingFactor ^ k := pow_pos hdamp k
    have : 0 < q.dampingFactor ^ k / 4 * d := by positivity
    linarith [hb, hab, this, sub_mul 1 (q.dampingFactor ^ k / 4) d, one_mul d]
  · rwa [hd] at h

/-- With a line search and no forced iteration, the defect only decreases. -/
theorem loop_decrease (P : Problem K X) (q : Params K) (hn : Bool) (hi : Idempotent P) (kept : Option X) (f : K) (ha : 0 < q.absLimit)
    (hdamp : 0 < q.dampingFactor) (hs : q.strategy ≠ .noLineSearch) (hf : q.forceIteration = false) :
    ∀ (n : Nat) (s : State K X), Inv P q hn kept (some f) s →
      ((s.result.iterations = 0 ∧ s.result.defect = some f) ∨ (1 ≤ s.result.iterations ∧ Lt s.result.defect (some f))) →
      let o := loop P q hn (some hn) n s
      o.2 ≠ some .defect ∧
      ((o.1.result.iterations = 0 ∧ o.1.result.defect = some f) ∨ (1 ≤ o.1.result.iterations ∧ Lt o.1.result.defect (some f))) := by
  intro n
  induction n with
  | zero => intro s _ h; exact ⟨by simp [loop], h⟩
  | succ n ih =>
    intro s hinv h
    obtain ⟨f1, f2⟩ := iter_spec P q hn hi kept (some f) s hinv
    rcases hit : iter P q hn (some hn) s with ⟨s', e⟩ | s'
    · rw [loop_inl hit]
      obtain ⟨g1, g2, g3, g4⟩ := f1 s' e hit
      have hne : e ≠ some .defect := by
        intro he
        obtain ⟨_, h1 | ⟨h1, _⟩⟩ := g1.defect he
        · exact hs h1
        · rw [hf] at h1; simp at h1
      refine ⟨hne, ?_⟩
      dsimp only
      rw [g3, g4 hne]
      exact h
    · rw [loop_inr hit]
      obtain ⟨g1, g2, g3⟩ := f2 s' hit
      apply ih s' g1
      rcases g3 with g3 | g3
      · right
        refine ⟨by rw [g3.its]; omega, ?_⟩
        obtain ⟨z, hz⟩ := g3.step
        rcases hd : s.result.defect with _ | d
        · exact absurd hd hinv.fin
        · have hnl : ¬ Lt s.result.defect (some q.absLimit) := by
            have ht : (terminate q s.result).2 = .ok false := by
              rcases htt : (terminate q s.result).2 with e | (_ | _)
              · unfold iter at hit; dsimp only at hit; rw [htt] at hit; simp at hit
              · rfl
              · unfold iter at hit; dsimp only at hit; rw [htt] at hit; simp at hit
            obtain ⟨_, ⟨h1, _⟩ | ⟨h1, _⟩⟩ := terminate_false hinv.conv ht
            · rw [hf] at h1; simp at h1
            · exact fun h' => h1 (Or.inl h')
          have hpos : 0 < d := by
            by_contra hc
            exact hnl ⟨d, _, hd, rfl, lt_of_le_of_lt (not_lt.1 hc) ha⟩
          have hdd : P.norm q.useMaxNorm s.solution = some d := by rw [← hinv.def_, hd]
          have := decrease hz hdd hpos hdamp hs (by rw [← hinv.def_]; exact hnl)
          rcases h with ⟨_, h⟩ | ⟨_, h⟩
          · rw [hd] at h
            rwa [h] at this
          · rw [hd] at h
            exact oLt_trans this h
      · have e1 : s'.result.iterations = s.result.iterations := by rw [g3.its]
        have e3 : s'.result.defect = s.result.defect := by rw [g3.its]
        rw [e1, e3]
        exact h

end

/-- The log only grows. -/
theorem iter_log (P : Problem K X) (q : Params K) (hn : Bool) (hp : Option Bool) (s : State K X) :
    (∀ o, iter P q hn hp s = .inl o → s.log <+: o.1.log) ∧ (∀ s', iter P q hn hp s = .inr s' → s.log <+: s'.log) := by
  have hfin : ∀ (s₀ : State K X) (x : X), (∀ o, finish P q hn x s₀ = .inl o → s₀.log <+: o.1.log) ∧
      (∀ s', finish P q hn x s₀ = .inr s' → s₀.log <+: s'.log) := by
    intro s₀ x
    unfold finish
    dsimp only
    constructor
    · intro o ho
      split at ho
      · cases ho; exact List.prefix_append _ _
      · split at ho
        · split at ho
          · cases ho; exact List.prefix_append _ _
          · simp at ho
        · cases ho; exact List.prefix_append _ _
        · simp at ho
    · intro o ho
      split at ho
      · simp at ho
      · split at ho
        · split at ho
          · simp at ho
          · cases ho; exact List.prefix_append _ _
        · simp at ho
        · cases ho; exact List.prefix_append _ _
  have hre : ∀ s₀ : State K X, s₀.log <+: (reassemble P q hp s₀).1.log := by
    intro s₀
    unfold reassemble
    dsimp only
    split
    · split
      · exact List.prefix_rfl
      · rename_i h
        by_cases hok : P.jacobianOk (if h = true then P.fix s₀.solution else s₀.solution) = true
        · rw [if_pos hok]
          exact List.prefix_append _ _
        · rw [if_neg hok]
          exact List.prefix_append _ _
    · exact List.prefix_rfl
  have hre' : s.log <+: (reassemble P q hp { s with result := (terminate q s.result).1 }).1.log :=
    hre { s with result := (terminate q s.result).1 }
  unfold iter
  dsimp only
  constructor
  · intro o ho
    split at ho
    · cases ho; exact List.prefix_rfl
    · cases ho; exact List.prefix_rfl
    · split at ho
      · cases ho; exact hre'
      · exact hre'.trans ((hfin _ _).1 o ho)
  · intro o ho
    split at ho
    · simp at ho
    · simp at ho
    · split at ho
      · simp at ho
      · exact hre'.trans ((hfin _ _).2 o ho)

theorem loop_log (P : Problem K X) (q : Params K) (hn : Bool) (hp : Option Bool) :
    ∀ (n : Nat) (s : State K X), s.log <+: (loop P q hn hp n s).1.log := by
  intro n
  induction n with
  | zero => intro s; exact List.prefix_rfl
  | succ n ih =>
    intro s
    rcases hit : iter P q hn hp s with o | s'
    · rw [loop_inl hit]
      exact (iter_log P q hn hp s).1 o hit
    · rw [loop_inr hit]
      exact ((iter_log P q hn hp s).2 s' hit).trans (ih s')

/-- If the ratio is above the threshold, the first call of a run of the loop is the assembly of the matrix. -/
theorem iter_first (P : Problem K X) (q : Params K) (hn : Bool) (s : State K X) (hfix : point P hn s.solution = s.solution) (hlog : s.log = [])
    (hr : ratioGt s.result.defect s.prevDefect q.reassembleThreshold = true)
    (hc : s.result.converged = false) :
    (∀ o, iter P q hn (some hn) s = .inl o → o.1.log = [] ∨ [Ev.assemble s.solution] <+: o.1.log) ∧
    (∀ s', iter P q hn (some hn) s = .inr s' → [Ev.assemble s.solution] <+: s'.log) := by
  have hre : ∀ s₀ : State K X, s₀ = s → [Ev.assemble s.solution] <+: (reassemble P q (some hn) s₀).1.log := by
    intro s₀ hs₀
    subst hs₀
    unfold reassemble
    dsimp only
    rw [if_pos hr]
    have hpt : (if hn = true then P.fix s₀.solution else s₀.solution) = s₀.solution := hfix
    rw [hpt, hlog]
    split <;> exact List.prefix_rfl
  have hfin : ∀ (s₀ : State K X) (x : X), (∀ o, finish P q hn x s₀ = .inl o → s₀.log <+: o.1.log) ∧
      (∀ s', finish P q hn x s₀ = .inr s' → s₀.log <+: s'.log) := by
    intro s₀ x
    unfold finish
    dsimp only
    constructor
    · intro o ho
      split at ho
      · cases ho; exact List.prefix_append _ _
      · split at ho
        · split at ho
          · cases ho; exact List.prefix_append _ _
          · simp at ho
        · cases ho; exact List.prefix_append _ _
        · simp at ho
    · intro o ho
      split at ho
      · simp at ho
      · split at ho
        · split at ho
          · simp at ho
          · cases ho; exact List.prefix_append _ _
        · simp at ho
        · cases ho; exact List.prefix_append _ _
  unfold iter
  dsimp only
  rcases ht : (terminate q s.result).2 with e | (_ | _)
  · exact ⟨fun o ho => by cases ho; exact Or.inl hlog, by simp⟩
  · obtain ⟨h1, _⟩ := terminate_false hc ht
    dsimp only
    rw [h1]
    constructor
    · intro o ho
      right
      split at ho
      · cases ho; exact hre _ rfl
      · exact (hre _ rfl).trans ((hfin _ _).1 o ho)
    · intro o ho
      split at ho
      · simp at ho
      · exact (hre _ rfl).trans ((hfin _ _).2 o ho)
  · exact ⟨fun o ho => by cases ho; exact Or.inl hlog, by simp⟩

/-- The initial state of the loop. -/
def start (P : Problem K X) (q : Params K) (hn : Bool) (o : Obj K X) (x : X) : State K X :=
  let cur := evalDefect P q hn x
  ⟨cur.solution, { o.result with iterations := 0, converged := false, reduction := some 1, linearIterations := 0, defect := cur.defect,
                                 firstDefect := cur.defect }, cur.defect, o.jacobian.orElse fun _ => some none, false, []⟩

theorem start_inv (P : Problem K X) (q : Params K) (hn : Bool) (hi : Idempotent P) (o : Obj K X) (x : X)
    (hd : P.norm q.useMaxNorm (point P hn x) ≠ none) :
    Inv P q hn (o.jacobian.getD none) (P.norm q.useMaxNorm (point P hn x)) (start P q hn o x) := by
  refine ⟨rfl, hd, point_point P hi hn x, rfl, ?_, rfl, le_rfl, ?_, ?_, ?_, rfl⟩
  · intro f d hf hd' hf0
    have : f = d := Option.some.inj (hf.symm.trans hd')
    subst this
    rw [div_self hf0]
    rfl
  · change o.jacobian.orElse (fun _ => some none) = some (o.jacobian.getD none)
    rcases o.jacobian with _ | m <;> rfl
  · intro l₁ m y red reuse k l₂ he
    have := congrArg List.length he
    simp [start] at this
  · rintro ⟨l, y, he⟩
    have := congrArg List.length he
    simp [start] at this

/-- `apply` if the flags are set and the first defect is a number. -/
theorem apply_eq (P : Problem K X) (q : Params K) (hn : Bool) (o : Obj K X) (x : X) (n : Nat) (hs : o.hnSolver = some hn)
    (hp : o.hnPrepare = some hn) (hd : P.norm q.useMaxNorm (point P hn x) ≠ none) :
    let out := loop P q hn (some hn) n (start P q hn o x)
    (apply P q n o x).obj.result = out.1.result ∧ (apply P q n o x).solution = out.1.solution ∧ (apply P q n o x).log = out.1.log ∧
    (apply P q n o x).error = out.2 ∧
    (apply P q n o x).obj.jacobian = (match out.2 with
      | none => if q.keepMatrix then out.1.jacobian else none
      | some _ => out.1.jacobian) ∧
    (apply P q n o x).obj.resultValid = true := by
  obtain ⟨res, jac, h1, h2, rv⟩ := o
  dsimp only at hs hp
  subst hs hp
  unfold apply
  dsimp only
  have hr : raised (evalDefect P q hn x) = none := raised_none.2 hd
  rw [hr]
  exact ⟨rfl, rfl, rfl, rfl, rfl, rfl⟩

/-- One run of the loop in which the matrix is assembled. -/
theorem iter_assembled (P : Problem K X) (q : Params K) (hn : Bool) (s : State K X) (hfix : point P hn s.solution = s.solution)
    (hr : ratioGt s.result.defect s.prevDefect q.reassembleThreshold = true) (hc : s.result.converged = false) :
    (∀ o, iter P q hn (some hn) s = .inl o → o.1.log = s.log ∨ o.1.log = s.log ++ [Ev.assemble s.solution] ∨
      ∃ red k, o.1.log = s.log ++ [Ev.assemble s.solution, Ev.linearSolve (some s.solution) s.solution red false k]) ∧
    (∀ s', iter P q hn (some hn) s = .inr s' → s'.prevDefect = s.result.defect ∧ s'.result.iterations = s.result.iterations + 1 ∧
      ∃ red k, s'.log = s.log ++ [Ev.assemble s.solution, Ev.linearSolve (some s.solution) s.solution red false k]) := by
  have hpt : (if hn = true then P.fix s.solution else s.solution) = s.solution := hfix
  unfold iter
  dsimp only
  rcases ht : (terminate q s.result).2 with e | (_ | _)
  · exact ⟨fun o ho => by cases ho; exact Or.inl rfl, by simp⟩
  · obtain ⟨h1, _⟩ := terminate_false hc ht
    dsimp only
    rw [h1]
    unfold reassemble
    dsimp only
    rw [if_pos hr, hpt]
    by_cases hok : P.jacobianOk s.solution = true
    · rw [if_pos hok]
      dsimp only
      unfold finish
      dsimp only [Option.getD_some, Bool.not_true]
      constructor
      · intro o ho
        right; right
        split at ho
        · cases ho; exact ⟨_, _, List.append_assoc _ _ _⟩
        · split at ho
          · split at ho
            · cases ho; exact ⟨_, _, List.append_assoc _ _ _⟩
            · simp at ho
          · cases ho; exact ⟨_, _, List.append_assoc _ _ _⟩
          · simp at ho
      · intro o ho
        split at ho
        · simp at ho
        · split at ho
          · split at ho
            · simp at ho
            · rename_i hb; exact absurd rfl hb
          · simp at ho
          · cases ho; exact ⟨rfl, rfl, _, _, List.append_assoc _ _ _⟩
    · rw [if_neg hok]
      exact ⟨fun o ho => by cases ho; exact Or.inr (Or.inl rfl), by simp⟩
  · exact ⟨fun o ho => by cases ho; exact Or.inl rfl, by simp⟩

/-- All solves in the log are with the Jacobian at their own solution. -/
def Current (log : List (Ev K X)) : Prop := ∀ m y red reuse k, Ev.linearSolve m y red reuse k ∈ log → m = some y ∧ reuse = false

theorem current_append {log : List (Ev K X)} (h : Current log) (x : X) (red : Option K) (k : Nat) :
    Current (log ++ [Ev.assemble x, Ev.linearSolve (some x) x red false k]) := by
  intro m y red' reuse k' hm
  rcases List.mem_append.1 hm with hm | hm
  · exact h _ _ _ _ _ hm
  · simp only [List.mem_cons, reduceCtorEq, false_or, Ev.linearSolve.injEq, List.not_mem_nil, or_false] at hm
    obtain ⟨rfl, rfl, _, rfl, _⟩ := hm
    exact ⟨rfl, rfl⟩

theorem current_assemble {log : List (Ev K X)} (h : Current log) (x : X) : Current (log ++ [Ev.assemble x]) := by
  intro m y red' reuse k' hm
  rcases List.mem_append.1 hm with hm | hm
  · exact h _ _ _ _ _ hm
  · simp at hm

/-- With threshold zero, every system is solved with the current Jacobian. -/
theorem loop_current [IsStrictOrderedRing K] (P : Problem K X) (q : Params K) (hn : Bool) (hi : Idempotent P) (ht : q.reassembleThreshold = 0)
    (ha : 0 < q.absLimit) (kept : Option X) (first : Option K) :
    ∀ (n : Nat) (s : State K X), Inv P q hn kept first s →
      (s.prevDefect = s.result.defect ∨ ∃ p, 0 < p ∧ s.prevDefect = some p) → Current s.log →
      (q.forceIteration = true → s.result.iterations = 0 → ∀ d, s.result.defect = some d → 0 < d) →
      Current (loop P q hn (some hn) n s).1.log := by
  intro n
  induction n with
  | zero => intro s _ _ h _; exact h
  | succ n ih =>
    intro s hinv hprev hcur hforce
    rcases htt : (terminate q s.result).2 with e | (_ | _)
    · have hit : iter P q hn (some hn) s = .inl ({ s with result := (terminate q s.result).1 }, some e) := by
        unfold iter; dsimp only; rw [htt]
      rw [loop_inl hit]
      exact hcur
    · obtain ⟨_, hcase⟩ := terminate_false hinv.conv htt
      rcases hd : s.result.defect with _ | d
      · exact absurd hd hinv.fin
      · · have hpos : 0 < d := by
            rcases hcase with ⟨h1, h2⟩ | ⟨h1, _⟩
            · exact hforce h1 h2 d hd
            · by_contra hc
              exact h1 (Or.inl ⟨d, _, hd, rfl, lt_of_le_of_lt (not_lt.1 hc) ha⟩)
          have hr : ratioGt s.result.defect s.prevDefect q.reassembleThreshold = true := by
            have : ∃ p, 0 < p ∧ s.prevDefect = some p := by
              rcases hprev with h | h
              · exact ⟨d, hpos, by rw [h, hd]⟩
              · exact h
            obtain ⟨p, hp, hp'⟩ := this
            rw [hd, hp', ht]
            unfold ratioGt
            dsimp only
            rw [if_neg hp.ne']
            exact decide_eq_true (div_pos hpos hp)
          obtain ⟨f1, f2⟩ := iter_assembled P q hn s hinv.fixed hr hinv.conv
          rcases hit : iter P q hn (some hn) s with o | s'
          · rw [loop_inl hit]
            rcases f1 o hit with h | h | ⟨red, k, h⟩
            · rw [h]; exact hcur
            · rw [h]; exact current_assemble hcur _
            · rw [h]; exact current_append hcur _ _ _
          · rw [loop_inr hit]
            obtain ⟨g1, g3, red, k, g2⟩ := f2 s' hit
            apply ih s' ((iter_spec P q hn hi kept first s hinv).2 s' hit).1
            · right
              exact ⟨d, hpos, by rw [g1, hd]⟩
            · rw [g2]; exact current_append hcur _ _ _
            · intro _ h0; omega
    · have hit : iter P q hn (some hn) s = .inl ({ s with result := (terminate q s.result).1 }, none) := by
        unfold iter; dsimp only; rw [htt]
      rw [loop_inl hit]
      exact hcur

theorem runSteps_ok {tree : String → Option (Val K)} {k : String} {f l} {q : Params K} (h : (runSteps tree ((k, f) :: l) q).2 = true) :
    ∃ q₁, (match tree k with
      | none => q₁ = q
      | some v => f v q = some q₁) ∧ runSteps tree ((k, f) :: l) q = runSteps tree l q₁ := by
  rcases hk : tree k with _ | v
  · exact ⟨q, rfl, by conv_lhs => unfold runSteps
                      rw [hk]⟩
  · rcases hf : f v q with _ | q₁
    · unfold runSteps at h
      rw [hk] at h
      dsimp only at h
      rw [hf] at h
      simp at h
    · exact ⟨q₁, hf, by conv_lhs => unfold runSteps
                        rw [hk]
                        dsimp only
                        rw [hf]⟩

/-- A step that sets one field leaves the others. -/
theorem step_num {tree : String → Option (Val K)} {k : String} {f : K → Params K → Params K} {q q₁ : Params K}
    (h : match tree k with | none => q₁ = q | some v => onNum f v q = some q₁) :
    (tree k = none ∧ q₁ = q) ∨ ∃ x, tree k = some (.num x) ∧ q₁ = f x q := by
  rcases hk : tree k with _ | v
  · rw [hk] at h; exact Or.inl ⟨rfl, h⟩
  · rw [hk] at h
    rcases v with x | x | x | x <;> simp only [onNum, Option.some.injEq, reduceCtorEq] at h
    exact Or.inr ⟨x, rfl, h.symm⟩

theorem step_nat {tree : String → Option (Val K)} {k : String} {f : Nat → Params K → Params K} {q q₁ : Params K}
    (h : match tree k with | none => q₁ = q | some v => onNat f v q = some q₁) :
    (tree k = none ∧ q₁ = q) ∨ ∃ x, tree k = some (.nat x) ∧ q₁ = f x q := by
  rcases hk : tree k with _ | v
  · rw [hk] at h; exact Or.inl ⟨rfl, h⟩
  · rw [hk] at h
    rcases v with x | x | x | x <;> simp only [onNat, Option.some.injEq, reduceCtorEq] at h
    exact Or.inr ⟨x, rfl, h.symm⟩

theorem step_bool {tree : String → Option (Val K)} {k : String} {f : Bool → Params K → Params K} {q q₁ : Params K}
    (h : match tree k with | none => q₁ = q | some v => onBool f v q = some q₁) :
    (tree k = none ∧ q₁ = q) ∨ ∃ x, tree k = some (.bool x) ∧ q₁ = f x q := by
  rcases hk : tree k with _ | v
  · rw [hk] at h; exact Or.inl ⟨rfl, h⟩
  · rw [hk] at h
    rcases v with x | x | x | x <;> simp only [onBool, Option.some.injEq, reduceCtorEq] at h
    exact Or.inr ⟨x, rfl, h.symm⟩

theorem step_strategy {tree : String → Option (Val K)} {k : String} {q q₁ : Params K}
    (h : match tree k with | none => q₁ = q | some v => onStrategy v q = some q₁) :
    (tree k = none ∧ q₁ = q) ∨ ∃ v x, tree k = some v ∧ asStrategy v = some x ∧ q₁ = { q with strategy := x } := by
  rcases hk : tree k with _ | v
  · rw [hk] at h; exact Or.inl ⟨rfl, h⟩
  · rw [hk] at h
    rcases v with x | x | x | x <;> simp only [onStrategy, reduceCtorEq] at h
    unfold strategyFromName at h
    by_cases h1 : x = "noLineSearch"
    · subst h1
      simp only [if_true, Option.map_some, Option.some.injEq] at h
      exact Or.inr ⟨_, _, rfl, rfl, h.symm⟩
    · rw [if_neg h1] at h
      by_cases h2 : x = "hackbuschReusken"
      · subst h2
        simp only [if_true, Option.map_some, Option.some.injEq] at h
        exact Or.inr ⟨_, _, rfl, rfl, h.symm⟩
      · rw [if_neg h2] at h
        by_cases h3 : x = "hackbuschReuskenAcceptBest"
        · subst h3
          simp only [if_true, Option.map_some, Option.some.injEq] at h
          exact Or.inr ⟨_, _, rfl, rfl, h.symm⟩
        · rw [if_neg h3] at h
          simp at h

theorem fromKey_num {tree : String → Option (Val K)} {k : String} {a b : K} (h : (tree k = none ∧ b = a) ∨ tree k = some (.num b)) :
    FromKey tree k asNum a b := by
  rcases h with ⟨h, h'⟩ | h
  · exact ⟨fun _ => h', fun v hv => by rw [h] at hv; simp at hv⟩
  · exact ⟨fun hn => by rw [h] at hn; simp at hn, fun v hv => by rw [h] at hv; cases hv; rfl⟩

theorem fromKey_nat {tree : String → Option (Val K)} {k : String} {a b : Nat} (h : (tree k = none ∧ b = a) ∨ tree k = some (.nat b)) :
    FromKey tree k asNat a b := by
  rcases h with ⟨h, h'⟩ | h
  · exact ⟨fun _ => h', fun v hv => by rw [h] at hv; simp at hv⟩
  · exact ⟨fun hn => by rw [h] at hn; simp at hn, fun v hv => by rw [h] at hv; cases hv; rfl⟩

theorem fromKey_bool {tree : String → Option (Val K)} {k : String} {a b : Bool} (h : (tree k = none ∧ b = a) ∨ tree k = some (.bool b)) :
    FromKey tree k asBool a b := by
  rcases h with ⟨h, h'⟩ | h
  · exact ⟨fun _ => h', fun v hv => by rw [h] at hv; simp at hv⟩
  · exact ⟨fun hn => by rw [h] at hn; simp at hn, fun v hv => by rw [h] at hv; cases hv; rfl⟩

theorem fromKey_strategy {tree : String → Option (Val K)} {k : String} {a b : Strategy}
    (h : (tree k = none ∧ b = a) ∨ ∃ v, tree k = some v ∧ asStrategy v = some b) : FromKey tree k asStrategy a b := by
  rcases h with ⟨h, h'⟩ | ⟨w, h, h'⟩
  · exact ⟨fun _ => h', fun v hv => by rw [h] at hv; simp at hv⟩
  · exact ⟨fun hn => by rw [h] at hn; simp at hn, fun v hv => by rw [h] at hv; cases hv; exact h'⟩

/-- `setParameters` if it returns. -/
theorem setParameters_spec (tree : String → Option (Val K)) (q : Params K) (h : (setParameters tree q).2 = true) :
    ParametersSet tree q (setParameters tree q).1 := by
  unfold setParameters steps at h ⊢
  obtain ⟨q1, s1, e⟩ := runSteps_ok h
  rw [e] at h ⊢; clear e
  obtain ⟨q2, s2, e⟩ := runSteps_ok h
  rw [e] at h ⊢; clear e
  obtain ⟨q3, s3, e⟩ := runSteps_ok h
  rw [e] at h ⊢; clear e
  obtain ⟨q4, s4, e⟩ := runSteps_ok h
  rw [e] at h ⊢; clear e
  obtain ⟨q5, s5, e⟩ := runSteps_ok h
  rw [e] at h ⊢; clear e
  obtain ⟨q6, s6, e⟩ := runSteps_ok h
  rw [e] at h ⊢; clear e
  obtain ⟨q7, s7, e⟩ := runSteps_ok h
  rw [e] at h ⊢; clear e
  obtain ⟨q8, s8, e⟩ := runSteps_ok h
  rw [e] at h ⊢; clear e
  obtain ⟨q9, s9, e⟩ := runSteps_ok h
  rw [e] at h ⊢; clear e
  obtain ⟨q10, s10, e⟩ := runSteps_ok h
  rw [e] at h ⊢; clear e
  obtain ⟨q11, s11, e⟩ := runSteps_ok h
  rw [e] at h ⊢; clear e
  obtain ⟨q12, s12, e⟩ := runSteps_ok h
  rw [e] at h ⊢; clear e h
  change ParametersSet tree q q12
  replace s1 := step_num s1
  replace s2 := step_nat s2
  replace s3 := step_bool s3
  replace s4 := step_num s4
  replace s5 := step_num s5
  replace s6 := step_bool s6
  replace s7 := step_num s7
  replace s8 := step_strategy s8
  replace s9 := step_nat s9
  replace s10 := step_num s10
  replace s11 := step_bool s11
  replace s12 := step_bool s12
  have g1 : (tree "Reduction" = none ∧ q1.reduction = q.reduction ∨ tree "Reduction" = some (.num q1.reduction)) ∧
      q1 = { q with reduction := q1.reduction } := by
    rcases s1 with ⟨a, rfl⟩ | ⟨x, a, rfl⟩
    · exact ⟨Or.inl ⟨a, rfl⟩, rfl⟩
    · exact ⟨Or.inr a, rfl⟩
  have g2 : (tree "MaxIterations" = none ∧ q2.maxIterations = q1.maxIterations ∨ tree "MaxIterations" = some (.nat q2.maxIterations)) ∧
      q2 = { q1 with maxIterations := q2.maxIterations } := by
    rcases s2 with ⟨a, rfl⟩ | ⟨x, a, rfl⟩
    · exact ⟨Or.inl ⟨a, rfl⟩, rfl⟩
    · exact ⟨Or.inr a, rfl⟩
  have g3 : (tree "ForceIteration" = none ∧ q3.forceIteration = q2.forceIteration ∨ tree "ForceIteration" = some (.bool q3.forceIteration)) ∧
      q3 = { q2 with forceIteration := q3.forceIteration } := by
    rcases s3 with ⟨a, rfl⟩ | ⟨x, a, rfl⟩
    · exact ⟨Or.inl ⟨a, rfl⟩, rfl⟩
    · exact ⟨Or.inr a, rfl⟩
  have g4 : (tree "AbsoluteLimit" = none ∧ q4.absLimit = q3.absLimit ∨ tree "AbsoluteLimit" = some (.num q4.absLimit)) ∧
      q4 = { q3 with absLimit := q4.absLimit } := by
    rcases s4 with ⟨a, rfl⟩ | ⟨x, a, rfl⟩
    · exact ⟨Or.inl ⟨a, rfl⟩, rfl⟩
    · exact ⟨Or.inr a, rfl⟩
  have g5 : (tree "MinLinearReduction" = none ∧ q5.minLinearReduction = q4.minLinearReduction ∨
      tree "MinLinearReduction" = some (.num q5.minLinearReduction)) ∧ q5 = { q4 with minLinearReduction := q5.minLinearReduction } := by
    rcases s5 with ⟨a, rfl⟩ | ⟨x, a, rfl⟩
    · exact ⟨Or.inl ⟨a, rfl⟩, rfl⟩
    · exact ⟨Or.inr a, rfl⟩
  have g6 : (tree "FixedLinearReduction" = none ∧ q6.fixedLinearReduction = q5.fixedLinearReduction ∨
      tree "FixedLinearReduction" = some (.bool q6.fixedLinearReduction)) ∧ q6 = { q5 with fixedLinearReduction := q6.fixedLinearReduction } := by
    rcases s6 with ⟨a, rfl⟩ | ⟨x, a, rfl⟩
    · exact ⟨Or.inl ⟨a, rfl⟩, rfl⟩
    · exact ⟨Or.inr a, rfl⟩
  have g7 : (tree "ReassembleThreshold" = none ∧ q7.reassembleThreshold = q6.reassembleThreshold ∨
      tree "ReassembleThreshold" = some (.num q7.reassembleThreshold)) ∧ q7 = { q6 with reassembleThreshold := q7.reassembleThreshold } := by
    rcases s7 with ⟨a, rfl⟩ | ⟨x, a, rfl⟩
    · exact ⟨Or.inl ⟨a, rfl⟩, rfl⟩
    · exact ⟨Or.inr a, rfl⟩
  have g8 : (tree "LineSearchStrategy" = none ∧ q8.strategy = q7.strategy ∨
      ∃ v, tree "LineSearchStrategy" = some v ∧ asStrategy v = some q8.strategy) ∧ q8 = { q7 with strategy := q8.strategy } := by
    rcases s8 with ⟨a, rfl⟩ | ⟨v, x, a, b, rfl⟩
    · exact ⟨Or.inl ⟨a, rfl⟩, rfl⟩
    · exact ⟨Or.inr ⟨v, a, b⟩, rfl⟩
  have g9 : (tree "LineSearchMaxIterations" = none ∧ q9.lineSearchMaxIterations = q8.lineSearchMaxIterations ∨
      tree "LineSearchMaxIterations" = some (.nat q9.lineSearchMaxIterations)) ∧
      q9 = { q8 with lineSearchMaxIterations := q9.lineSearchMaxIterations } := by
    rcases s9 with ⟨a, rfl⟩ | ⟨x, a, rfl⟩
    · exact ⟨Or.inl ⟨a, rfl⟩, rfl⟩
    · exact ⟨Or.inr a, rfl⟩
  have g10 : (tree "LineSearchDampingFactor" = none ∧ q10.dampingFactor = q9.dampingFactor ∨
      tree "LineSearchDampingFactor" = some (.num q10.dampingFactor)) ∧ q10 = { q9 with dampingFactor := q10.dampingFactor } := by
    rcases s10 with ⟨a, rfl⟩ | ⟨x, a, rfl⟩
    · exact ⟨Or.inl ⟨a, rfl⟩, rfl⟩
    · exact ⟨Or.inr a, rfl⟩
  have g11 : (tree "KeepMatrix" = none ∧ q11.keepMatrix = q10.keepMatrix ∨
      tree "KeepMatrix" = some (.bool q11.keepMatrix)) ∧ q11 = { q10 with keepMatrix := q11.keepMatrix } := by
    rcases s11 with ⟨a, rfl⟩ | ⟨x, a, rfl⟩
    · exact ⟨Or.inl ⟨a, rfl⟩, rfl⟩
    · exact ⟨Or.inr a, rfl⟩
  have g12 : (tree "UseMaxNorm" = none ∧ q12.useMaxNorm = q11.useMaxNorm ∨
      tree "UseMaxNorm" = some (.bool q12.useMaxNorm)) ∧ q12 = { q11 with useMaxNorm := q12.useMaxNorm } := by
    rcases s12 with ⟨a, rfl⟩ | ⟨x, a, rfl⟩
    · exact ⟨Or.inl ⟨a, rfl⟩, rfl⟩
    · exact ⟨Or.inr a, rfl⟩
  clear s1 s2 s3 s4 s5 s6 s7 s8 s9 s10 s11 s12
  obtain ⟨a1, b1⟩ := g1
  obtain ⟨a2, b2⟩ := g2
  obtain ⟨a3, b3⟩ := g3
  obtain ⟨a4, b4⟩ := g4
  obtain ⟨a5, b5⟩ := g5
  obtain ⟨a6, b6⟩ := g6
  obtain ⟨a7, b7⟩ := g7
  obtain ⟨a8, b8⟩ := g8
  obtain ⟨a9, b9⟩ := g9
  obtain ⟨a10, b10⟩ := g10
  obtain ⟨a11, b11⟩ := g11
  obtain ⟨a12, b12⟩ := g12
  generalize q1.reduction = v1 at *
  generalize q2.maxIterations = v2 at *
  generalize q3.forceIteration = v3 at *
  generalize q4.absLimit = v4 at *
  generalize q5.minLinearReduction = v5 at *
  generalize q6.fixedLinearReduction = v6 at *
  generalize q7.reassembleThreshold = v7 at *
  generalize q8.strategy = v8 at *
  generalize q9.lineSearchMaxIterations = v9 at *
  generalize q10.dampingFactor = v10 at *
  generalize q11.keepMatrix = v11 at *
  generalize q12.useMaxNorm = v12 at *
  subst b1 b2 b3 b4 b5 b6 b7 b8 b9 b10 b11 b12
  exact ⟨fromKey_num a1, fromKey_num a4, fromKey_bool a11, fromKey_bool a12, fromKey_nat a2, fromKey_bool a3, fromKey_num a5, fromKey_bool a6,
    fromKey_num a7, fromKey_strategy a8, fromKey_nat a9, fromKey_num a10⟩

theorem runSteps_error (tree : String → Option (Val K)) :
    ∀ (l : List (String × (Val K → Params K → Option (Params K)))) (q : Params K), (runSteps tree l q).2 = false →
      ∃ k f v, (k, f) ∈ l ∧ tree k = some v ∧ ∃ q', f v q' = none := by
  intro l
  induction l with
  | nil => intro q h; simp [runSteps] at h
  | cons p l ih =>
    obtain ⟨k, f⟩ := p
    intro q h
    unfold runSteps at h
    rcases hk : tree k with _ | v
    · rw [hk] at h
      obtain ⟨k', f', v, h1, h2⟩ := ih q h
      exact ⟨k', f', v, List.mem_cons_of_mem _ h1, h2⟩
    · rw [hk] at h
      dsimp only at h
      rcases hf : f v q with _ | q₁
      · exact ⟨k, f, v, List.mem_cons_self, hk, q, hf⟩
      · rw [hf] at h
        obtain ⟨k', f', v, h1, h2⟩ := ih q₁ h
        exact ⟨k', f', v, List.mem_cons_of_mem _ h1, h2⟩

theorem onStrategy_none (v : Val K) (q q' : Params K) (h : onStrategy v q = none) : onStrategy v q' = none := by
  rcases v with x | x | x | x
  · rfl
  · rfl
  · rfl
  · simp only [onStrategy, Option.map_eq_none_iff] at h ⊢
    exact h

theorem setParameters_error (tree : String → Option (Val K)) (q : Params K) (h : (setParameters tree q).2 = false) :
    ∃ k f v, (k, f) ∈ (steps : List (String × (Val K → Params K → Option (Params K)))) ∧ tree k = some v ∧ ∀ q', f v q' = none := by
  obtain ⟨k, f, v, h1, h2, q', h3⟩ := runSteps_error tree _ q h
  refine ⟨k, f, v, h1, h2, fun q'' => ?_⟩
  unfold steps at h1
  simp only [List.mem_cons, Prod.mk.injEq, List.not_mem_nil, or_false] at h1
  rcases h1 with ⟨_, rfl⟩ | ⟨_, rfl⟩ | ⟨_, rfl⟩ | ⟨_, rfl⟩ | ⟨_, rfl⟩ | ⟨_, rfl⟩ | ⟨_, rfl⟩ | ⟨_, rfl⟩ | ⟨_, rfl⟩ | ⟨_, rfl⟩ | ⟨_, rfl⟩ | ⟨_, rfl⟩
  all_goals first
    | exact onStrategy_none v q' q'' h3
    | (rcases v with x | x | x | x <;> first | rfl | simp [onNum, onNat, onBool] at h3)

end Verif.OldNewton
