import Verif.Spec.OneStepMethod
import Mathlib.Algebra.BigOperators.Group.List.Basic
import Mathlib.Algebra.Order.Field.Basic
import Mathlib.Tactic.Linarith
import Mathlib.Tactic.Ring
namespace Verif.OneStep

variable {σ X T : Type}

theorem heapAfter_append (l1 l2 : List (Ev X T)) : ∀ h, heapAfter (l1 ++ l2) h = (heapAfter l1 h).bind (heapAfter l2) := by
  induction l1 with
  | nil => intro h; rfl
  | cons e l1 ih =>
    intro h
    cases e with
    | alloc r => simp only [List.cons_append, heapAfter]; split <;> simp [ih]
    | free r => simp only [List.cons_append, heapAfter]; split <;> simp [ih]
    | _ => exact ih h

theorem heapAfter_frees (l : List Nat) : ∀ h : List Nat, h.Perm l → h.Nodup →
    heapAfter (l.map (Ev.free : Nat → Ev X T)) h = some [] := by
  induction l with
  | nil => intro h hp _; rw [hp.eq_nil]; rfl
  | cons a l ih =>
    intro h hp hn
    have hm : a ∈ h := hp.mem_iff.mpr (by simp)
    simp only [List.map_cons, heapAfter, if_pos hm]
    refine ih _ ?_ (hn.erase a)
    have := hp.erase a
    simpa using this

section stats
variable [AddCommMonoid T]

omit [AddCommMonoid T] in
theorem solves_append (l1 l2 : List (Ev X T)) : solves (l1 ++ l2) = solves l1 ++ solves l2 := by
  unfold solves; rw [List.filterMap_append]

omit [AddCommMonoid T] in
theorem solves_frees (l : List Nat) : solves (l.map (Ev.free : Nat → Ev X T)) = [] := by
  unfold solves
  induction l with
  | nil => rfl
  | cons a l ih => simpa using ih

omit [AddCommMonoid T] in
theorem solves_alloc (c : Prop) [Decidable c] (r : Nat) : solves (if c then [] else [(Ev.alloc r : Ev X T)]) = [] := by
  split <;> rfl

omit [AddCommMonoid T] in
theorem solves_free (c : Prop) [Decidable c] (r : Nat) : solves (if c then [(Ev.free r : Ev X T)] else []) = [] := by
  split <;> rfl

end stats

/-- The outcome of the solver call in stage `r`. -/
def outOf (E : Env σ X T) (r : Nat) (R : Run σ X T) : σ × Bool × X × PDERes T :=
  E.solve R.st r ((List.range r).map R.mem) (E.initStage r R.mem r)

/-- The events of stage `r` up to the solver call. -/
def beginLog (E : Env σ X T) (r : Nat) (R : Run σ X T) : List (Ev X T) :=
  [.preStage r ((List.range r).map R.mem)] ++ ((if r = E.s then [] else [.alloc r]) ++
    [.solve r (E.initStage r R.mem r) (outOf E r R).2.2.1 (outOf E r R).2.2.2 (outOf E r R).2.1])

/-- The state after the solver call, with `post` appended to the log. -/
def afterSolve [Add T] (E : Env σ X T) (r : Nat) (R : Run σ X T) (post : List (Ev X T)) : Run σ X T :=
  ⟨upd (E.initStage r R.mem) r (outOf E r R).2.2.1, (outOf E r R).1, R.acc.addSolve (outOf E r R).2.2.2,
   R.log ++ (beginLog E r R ++ post)⟩

theorem stageLoop_succ [Add T] (E : Env σ X T) (n r : Nat) (R : Run σ X T) :
    stageLoop E (n + 1) r R =
      if E.preStageOk r ((List.range r).map R.mem) = false then
        (.exception, { R with log := R.log ++ [.preStage r ((List.range r).map R.mem)] })
      else if (outOf E r R).2.1 = true then stageLoop E n (r + 1) (afterSolve E r R [.postStage r])
      else (.solverFailed, afterSolve E r R ((List.range' 1 (r - 1)).map .free ++ if r < E.s then [.free r] else [])) := by
  rw [stageLoop]
  dsimp only
  split
  · rfl
  · have hl : ∀ post : List (Ev X T), (if r = E.s then R.log ++ [.preStage r ((List.range r).map R.mem)]
        else R.log ++ [.preStage r ((List.range r).map R.mem)] ++ [.alloc r]) ++ [.solve r (E.initStage r R.mem r)
          (outOf E r R).2.2.1 (outOf E r R).2.2.2 (outOf E r R).2.1] ++ post = R.log ++ (beginLog E r R ++ post) := by
      intro post; unfold beginLog; split <;> simp
    by_cases h : (outOf E r R).2.1 = true
    · rw [if_pos h]
      have h' : (E.solve R.st r ((List.range r).map R.mem) (E.initStage r R.mem r)).2.1 = true := h
      rw [if_pos h']
      unfold afterSolve
      rw [← hl]; rfl
    · rw [if_neg h]
      have h' : ¬ (E.solve R.st r ((List.range r).map R.mem) (E.initStage r R.mem r)).2.1 = true := h
      rw [if_neg h']
      unfold afterSolve
      rw [← hl, ← List.append_assoc]
      by_cases hr : r < E.s
      · rw [if_pos hr, if_pos hr]; rfl
      · rw [if_neg hr, if_neg hr, List.append_nil]; rfl

section stats
variable [AddCommMonoid T]

omit [AddCommMonoid T] in
theorem solves_begin (E : Env σ X T) (r : Nat) (R : Run σ X T) (post : List (Ev X T)) :
    solves (beginLog E r R ++ post) = (outOf E r R).2.2.2 :: solves post := by
  unfold beginLog
  rw [solves_append, solves_append, solves_append, solves_alloc]
  rfl

/-- The loop appends to the log, accumulates the results of the solver calls and does not call `postStep`. -/
theorem stageLoop_log (E : Env σ X T) : ∀ (n r : Nat) (R : Run σ X T),
    ∃ new, (stageLoop E n r R).2.log = R.log ++ new ∧
      (stageLoop E n r R).2.acc = (solves new).foldl Stats.addSolve R.acc ∧ Ev.postStep ∉ new := by
  intro n
  induction n with
  | zero => intro r R; exact ⟨[], by simp [stageLoop], rfl, by simp⟩
  | succ n ih =>
    intro r R
    have hb : Ev.postStep ∉ beginLog E r R := by unfold beginLog; split <;> simp
    rw [stageLoop_succ]
    split
    · exact ⟨[.preStage r ((List.range r).map R.mem)], rfl, rfl, by simp⟩
    · split
      · obtain ⟨new, h1, h2, h3⟩ := ih (r + 1) (afterSolve E r R [.postStage r])
        refine ⟨beginLog E r R ++ (.postStage r :: new), ?_, ?_, ?_⟩
        · rw [h1]; simp [afterSolve]
        · rw [h2, solves_begin]; simp [afterSolve, solves]
        · simp [h3, hb]
      · refine ⟨_, rfl, ?_, ?_⟩
        · rw [solves_begin, solves_append, solves_frees, solves_free]; rfl
        · simp only [List.mem_append, hb, false_or]; split <;> simp

theorem foldl_addSolve (l : List (PDERes T)) : ∀ a : Stats T, l.foldl Stats.addSolve a
    = ⟨a.timesteps, a.assemblerTime + (l.map (·.assemblerTime)).sum, a.linearSolverTime + (l.map (·.linearSolverTime)).sum,
       a.linearIterations + (l.map (·.linearIterations)).sum, a.nonlinearIterations + (l.map (·.iterations)).sum⟩ := by
  induction l with
  | nil => intro a; simp
  | cons p l ih => intro a; rw [List.foldl_cons, ih]; simp [Stats.addSolve, add_assoc]

end stats

theorem heap_begin (E : Env σ X T) (r : Nat) (R : Run σ X T) (h : List Nat) :
    heapAfter (beginLog E r R) h = if r = E.s then some h else if r ∈ h then none else some (r :: h) := by
  unfold beginLog
  by_cases hs : r = E.s <;> simp [hs, heapAfter]

/-- The blocks alive at the beginning of stage `r` are those of the previous stages. -/
theorem stageLoop_heap [Add T] (E : Env σ X T) : ∀ (n r : Nat) (R : Run σ X T), 1 ≤ r → r + n = E.s + 1 →
    ∀ h, heapAfter R.log [] = some h → h.Perm (List.range' 1 (min (r - 1) (E.s - 1))) →
    ((stageLoop E n r R).1 = .success → ∃ h', heapAfter (stageLoop E n r R).2.log [] = some h' ∧
        h'.Perm (List.range' 1 (E.s - 1))) ∧
    ((stageLoop E n r R).1 = .solverFailed → heapAfter (stageLoop E n r R).2.log [] = some []) := by
  intro n
  induction n with
  | zero =>
    intro r R _ hr h hh hp
    obtain rfl : r = E.s + 1 := by omega
    refine ⟨fun _ => ⟨h, hh, ?_⟩, fun hf => by simp [stageLoop] at hf⟩
    rwa [show min (E.s + 1 - 1) (E.s - 1) = E.s - 1 by omega] at hp
  | succ n ih =>
    intro r R h1 hr h hh hp
    have hmin : min (r - 1) (E.s - 1) = r - 1 := by omega
    rw [hmin] at hp
    have hnot : r ∉ h := by
      rw [hp.mem_iff, List.mem_range'_1]; omega
    have hbeg : heapAfter (R.log ++ beginLog E r R) [] = some (if r = E.s then h else r :: h) := by
      rw [heapAfter_append, hh, Option.bind_some, heap_begin, if_neg hnot]; split <;> rfl
    rw [stageLoop_succ]
    split
    · exact ⟨fun hf => by simp at hf, fun hf => by simp at hf⟩
    · split
      · refine ih (r + 1) _ (by omega) (by omega) (if r = E.s then h else r :: h) ?_ ?_
        · simp only [afterSolve]
          rw [← List.append_assoc, heapAfter_append, hbeg]; rfl
        · split
          · rw [show min (r + 1 - 1) (E.s - 1) = r - 1 by omega]; exact hp
          · rw [show min (r + 1 - 1) (E.s - 1) = (r - 1) + 1 by omega, List.range'_concat]
            refine (hp.cons r).trans ?_
            rw [show 1 + 1 * (r - 1) = r by omega]
            exact (List.perm_append_singleton _ _).symm
      · refine ⟨fun hf => by simp at hf, fun _ => ?_⟩
        simp only [afterSolve]
        rw [← List.append_assoc, heapAfter_append, hbeg, Option.bind_some]
        have hfrees : ((List.range' 1 (r - 1)).map Ev.free ++ if r < E.s then [(Ev.free r : Ev X T)] else [])
            = (List.range' 1 (r - 1) ++ if r < E.s then [r] else []).map Ev.free := by split <;> simp
        rw [hfrees]
        have hnd : h.Nodup := hp.nodup_iff.mpr (List.nodup_range')
        by_cases hs : r = E.s
        · rw [if_pos hs, if_neg (by omega), List.append_nil]
          exact heapAfter_frees _ _ hp hnd
        · rw [if_neg hs, if_pos (by omega)]
          exact heapAfter_frees _ _ ((hp.cons r).trans (List.perm_append_singleton _ _).symm)
            (List.nodup_cons.mpr ⟨hnot, hnd⟩)

/-- What happens in the stages of a successful step: the final memory holds all stages. -/
theorem stageLoop_mem [Add T] (E : Env σ X T) (hinit : ∀ r mem i, i ≠ r → E.initStage r mem i = mem i) :
    ∀ (n r : Nat) (R : Run σ X T), r + n = E.s + 1 → (stageLoop E n r R).1 = .success →
    (∀ i, i < r → (stageLoop E n r R).2.mem i = R.mem i) ∧
    (∀ e, e ∈ R.log → e ∈ (stageLoop E n r R).2.log) ∧
    ∀ k, r ≤ k → k ≤ E.s → ∃ (mem : Nat → X) (st : σ),
      (∀ i, i < k → mem i = (stageLoop E n r R).2.mem i) ∧ (∀ i, k ≤ i → mem i = R.mem i) ∧
      (stageLoop E n r R).2.mem k = (E.solve st k ((List.range k).map (stageLoop E n r R).2.mem) (E.initStage k mem k)).2.2.1 ∧
      (E.solve st k ((List.range k).map (stageLoop E n r R).2.mem) (E.initStage k mem k)).2.1 = true ∧
      Ev.preStage k ((List.range k).map (stageLoop E n r R).2.mem) ∈ (stageLoop E n r R).2.log ∧
      Ev.solve k (E.initStage k mem k) ((stageLoop E n r R).2.mem k)
        (E.solve st k ((List.range k).map (stageLoop E n r R).2.mem) (E.initStage k mem k)).2.2.2 true
          ∈ (stageLoop E n r R).2.log := by
  intro n
  induction n with
  | zero =>
    intro r R hr _
    refine ⟨fun i _ => rfl, fun e he => he, fun k h1 h2 => by omega⟩
  | succ n ih =>
    intro r R hr hsuc
    rw [stageLoop_succ] at hsuc ⊢
    split at hsuc
    · simp at hsuc
    · rename_i hpre
      rw [if_neg hpre]
      split at hsuc
      · rename_i hok
        rw [if_pos hok]
        obtain ⟨g1, g2, g3⟩ := ih (r + 1) _ (by omega) hsuc
        have hmem : ∀ i, i ≠ r → (afterSolve E r R [.postStage r]).mem i = R.mem i := by
          intro i hi; simp only [afterSolve, upd, if_neg hi]; exact hinit r R.mem i hi
        have hlow : ∀ i, i < r → (stageLoop E n (r + 1) (afterSolve E r R [.postStage r])).2.mem i = R.mem i := by
          intro i hi; rw [g1 i (by omega), hmem i (by omega)]
        refine ⟨hlow, fun e he => g2 e (by simp [afterSolve, he]), fun k hk1 hk2 => ?_⟩
        rcases Nat.lt_or_ge r k with hlt | hge
        · obtain ⟨mem, st, e1, e2, e3⟩ := g3 k hlt hk2
          exact ⟨mem, st, e1, fun i hi => by rw [e2 i hi, hmem i (by omega)], e3⟩
        · obtain rfl : k = r := by omega
          have hmap : (List.range k).map (stageLoop E n (k + 1) (afterSolve E k R [.postStage k])).2.mem
              = (List.range k).map R.mem := by
            refine List.map_congr_left fun i hi => hlow i (by simpa using hi)
          have hk : (stageLoop E n (k + 1) (afterSolve E k R [.postStage k])).2.mem k = (outOf E k R).2.2.1 := by
            rw [g1 k (by omega)]; simp [afterSolve, upd]
          refine ⟨R.mem, R.st, fun i hi => (hlow i hi).symm, fun i _ => rfl, ?_, ?_, ?_, ?_⟩
          · rw [hmap, hk]; rfl
          · rw [hmap]; exact hok
          · rw [hmap]; exact g2 _ (by simp [afterSolve, beginLog])
          · rw [hmap, hk]
            refine g2 _ ?_
            have hok' : (outOf E k R).2.1 = true := hok
            simp only [afterSolve, beginLog, List.mem_append, List.mem_singleton]
            refine Or.inr (Or.inl (Or.inr (Or.inr ?_)))
            rw [hok']; rfl
      · simp at hsuc

end Verif.OneStep
