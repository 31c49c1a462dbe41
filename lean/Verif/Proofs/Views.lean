import Verif.Spec.Views
import Mathlib.Tactic.Ring
import Mathlib.Data.List.GetD
import Mathlib.Data.List.Induction
/-
Helpers for the properties of views and interpolation.
-/
set_option linter.unusedSectionVars false

namespace Verif.Views

open Spec

variable {I J K P : Type} [DecidableEq I] [DecidableEq J] [Ring K]

/-! ### Loops -/

theorem store_loop (pos : Nat → Nat) (val : Nat → K) (l : List K) : ∀ n, (∀ i < n, pos i < l.length) →
    (∀ i < n, ∀ j < n, pos i = pos j → val i = val j) →
    ∃ l', (List.range n).foldlM (fun l i => store l (pos i) (val i)) l = some l' ∧ Read n pos val l l' := by
  intro n
  induction n with
  | zero => intro _ _; exact ⟨l, rfl, rfl, by simp, by simp⟩
  | succ n ih =>
    intro h hv
    obtain ⟨l', h1, h2, h3, h4⟩ := ih (fun i hi => h i (by omega)) fun i hi j hj => hv i (by omega) j (by omega)
    have hn : pos n < l'.length := by rw [h2]; exact h n (by omega)
    refine ⟨l'.set (pos n) (val n), ?_, ?_, ?_, ?_⟩
    · rw [List.range_succ, List.foldlM_append, h1]
      simp [store, hn]
    · simpa using h2
    · intro i hi
      rw [List.getElem?_set]
      by_cases he : pos n = pos i
      · rw [if_pos he, if_pos hn, hv n (by omega) i hi he]
      · rw [if_neg he]
        refine h3 i ?_
        rcases Nat.lt_or_ge i n with h' | h'
        · exact h'
        · exact absurd (by rw [show i = n by omega]) he
    · intro k hk
      rw [List.getElem?_set, if_neg (hk n (by omega)), h4 k fun i hi => hk i (by omega)]

theorem write_loop (idx : Nat → I) (src : Nat → Nat) (l : List K) (x : I → K) : ∀ n, (∀ i < n, src i < l.length) →
    (∀ i < n, ∀ j < n, idx i = idx j → src i = src j) →
    ∃ x', (List.range n).foldlM (fun x i => do pure (assign x (idx i) (← l[src i]?))) x = some x' ∧
      Written n idx (fun i => l.getD (src i) 0) x x' := by
  intro n
  induction n with
  | zero => intro _ _; exact ⟨x, rfl, by simp, by simp⟩
  | succ n ih =>
    intro h hv
    obtain ⟨x', h1, h2, h3⟩ := ih (fun i hi => h i (by omega)) fun i hi j hj => hv i (by omega) j (by omega)
    have hn : src n < l.length := h n (by omega)
    refine ⟨assign x' (idx n) (l.getD (src n) 0), ?_, ?_, ?_⟩
    · rw [List.range_succ, List.foldlM_append, h1]
      simp only [Option.bind_eq_bind, Option.bind_some, List.foldlM_cons, List.foldlM_nil, Option.pure_def]
      rw [List.getElem?_eq_getElem hn, List.getD_eq_getElem _ _ hn]
      rfl
    · intro i hi
      unfold assign
      by_cases he : idx i = idx n
      · rw [if_pos he]
        show l.getD (src n) 0 = l.getD (src i) 0
        rw [hv i hi n (by omega) he]
      · rw [if_neg he]
        refine h2 i ?_
        rcases Nat.lt_or_ge i n with h' | h'
        · exact h'
        · exact absurd (by rw [show i = n by omega]) he
    · intro c hc
      unfold assign
      rw [if_neg fun h => hc n (by omega) h.symm]
      exact h3 c fun i hi => hc i (by omega)

theorem add_loop (idx : Nat → I) (src : Nat → Nat) (l : List K) (x : I → K) : ∀ n, (∀ i < n, src i < l.length) →
    ∃ x', (List.range n).foldlM (fun x i => do pure (assign x (idx i) (x (idx i) + (← l[src i]?)))) x = some x' ∧
      Added n idx (fun i => l.getD (src i) 0) x x' := by
  intro n
  induction n with
  | zero => intro _; exact ⟨x, rfl, by intro c; simp⟩
  | succ n ih =>
    intro h
    obtain ⟨x', h1, h2⟩ := ih fun i hi => h i (by omega)
    have hn : src n < l.length := h n (by omega)
    refine ⟨assign x' (idx n) (x' (idx n) + l.getD (src n) 0), ?_, ?_⟩
    · rw [List.range_succ, List.foldlM_append, h1]
      simp only [Option.bind_eq_bind, Option.bind_some, List.foldlM_cons, List.foldlM_nil, Option.pure_def]
      rw [List.getElem?_eq_getElem hn, List.getD_eq_getElem _ _ hn]
      rfl
    · intro c
      simp only [List.range_succ, List.map_append, List.map_cons, List.map_nil, List.sum_append, List.sum_cons, List.sum_nil, add_zero]
      rw [← add_assoc, ← h2 c]
      unfold assign
      by_cases he : c = idx n
      · rw [if_pos he, if_pos he.symm, he]
      · rw [if_neg he, if_neg fun h => he h.symm, add_zero]

/-! ### Matrices -/

theorem mem_entries (n m i j : Nat) : (i, j) ∈ entries n m ↔ i < n ∧ j < m := by
  simp [entries]

theorem matrix_write_loop {A B : Type} [DecidableEq A] [DecidableEq B] (ri : Nat → A) (ci : Nat → B) (N M : Nat) (l : Nat → Nat → K) :
    ∀ (ps : List (Nat × Nat)) (a : A → B → K), (∀ p ∈ ps, p.1 < N ∧ p.2 < M) →
      (∀ p ∈ ps, ∀ q ∈ ps, ri p.1 = ri q.1 → ci p.2 = ci q.2 → p = q) →
      ∃ a', ps.foldlM (fun a p => if p.1 < N ∧ p.2 < M then some (assignEntry a (ri p.1) (ci p.2) (l p.1 p.2)) else none) a = some a' ∧
        (∀ p ∈ ps, a' (ri p.1) (ci p.2) = l p.1 p.2) ∧ ∀ u v, (∀ p ∈ ps, ¬ (ri p.1 = u ∧ ci p.2 = v)) → a' u v = a u v := by
  intro ps
  induction ps using List.reverseRecOn with
  | nil => intro a _ _; exact ⟨a, rfl, by simp, by simp⟩
  | append_singleton ps p ih =>
    intro a h hd
    obtain ⟨a', h1, h2, h3⟩ := ih a (fun p hp => h p (by simp [hp])) fun p hp q hq => hd p (by simp [hp]) q (by simp [hq])
    refine ⟨assignEntry a' (ri p.1) (ci p.2) (l p.1 p.2), ?_, ?_, ?_⟩
    · rw [List.foldlM_append, h1]
      simp [h p (by simp)]
    · intro q hq
      unfold assignEntry
      by_cases he : ri q.1 = ri p.1 ∧ ci q.2 = ci p.2
      · rw [if_pos he, hd q hq p (by simp) he.1 he.2]
      · rw [if_neg he]
        refine h2 q ?_
        rcases List.mem_append.mp hq with h' | h'
        · exact h'
        · exact absurd (by rw [List.mem_singleton.mp h']; exact ⟨rfl, rfl⟩) he
    · intro u v huv
      unfold assignEntry
      rw [if_neg fun h => huv p (by simp) ⟨h.1.symm, h.2.symm⟩]
      exact h3 u v fun q hq => huv q (by simp [hq])

theorem matrix_add_loop {A B : Type} [DecidableEq A] [DecidableEq B] (ri : Nat → A) (ci : Nat → B) (N M : Nat) (l : Nat → Nat → K) :
    ∀ (ps : List (Nat × Nat)) (a : A → B → K), (∀ p ∈ ps, p.1 < N ∧ p.2 < M) →
      ∃ a', ps.foldlM (fun a p => if p.1 < N ∧ p.2 < M then
            some (assignEntry a (ri p.1) (ci p.2) (a (ri p.1) (ci p.2) + l p.1 p.2)) else none) a = some a' ∧
        ∀ u v, a' u v = a u v + (ps.map fun p => if ri p.1 = u ∧ ci p.2 = v then l p.1 p.2 else 0).sum := by
  intro ps
  induction ps using List.reverseRecOn with
  | nil => intro a _; exact ⟨a, rfl, by simp⟩
  | append_singleton ps p ih =>
    intro a h
    obtain ⟨a', h1, h2⟩ := ih a fun p hp => h p (by simp [hp])
    refine ⟨assignEntry a' (ri p.1) (ci p.2) (a' (ri p.1) (ci p.2) + l p.1 p.2), ?_, ?_⟩
    · rw [List.foldlM_append, h1]
      simp [h p (by simp)]
    · intro u v
      simp only [List.map_append, List.map_cons, List.map_nil, List.sum_append, List.sum_cons, List.sum_nil, add_zero]
      rw [← add_assoc, ← h2 u v]
      unfold assignEntry
      by_cases he : u = ri p.1 ∧ v = ci p.2
      · rw [if_pos he, if_pos ⟨he.1.symm, he.2.symm⟩, he.1, he.2]
      · rw [if_neg he, if_neg fun h => he ⟨h.1.symm, h.2.symm⟩, add_zero]

/-! ### Interpolation as a list of assignments -/

/-- Performs a list of assignments. -/
def applyWrites (ws : List (I × K)) (x : I → K) : I → K := ws.foldl (fun x w => assign x w.1 w.2) x

theorem applyWrites_append (ws ws' : List (I × K)) (x : I → K) : applyWrites (ws ++ ws') x = applyWrites ws' (applyWrites ws x) := by
  simp [applyWrites]

theorem applyWrites_untouched (c : I) : ∀ (ws : List (I × K)) (x : I → K), (∀ w ∈ ws, w.1 ≠ c) → applyWrites ws x c = x c := by
  intro ws
  induction ws with
  | nil => intro x _; rfl
  | cons w ws ih =>
    intro x h
    show applyWrites ws (assign x w.1 w.2) c = x c
    rw [ih _ fun w' hw' => h w' (by simp [hw'])]
    unfold assign
    rw [if_neg fun he => h w (by simp) he.symm]

theorem applyWrites_value (c : I) (v : K) (ws : List (I × K)) (x : I → K) (h : ∀ w ∈ ws, w.1 = c → w.2 = v)
    (he : ∃ w ∈ ws, w.1 = c) : applyWrites ws x c = v := by
  induction ws using List.reverseRecOn generalizing x with
  | nil => obtain ⟨w, hw, _⟩ := he; simp at hw
  | append_singleton ws w ih =>
    rw [applyWrites_append]
    show assign (applyWrites ws x) w.1 w.2 c = v
    unfold assign
    by_cases hc : c = w.1
    · rw [if_pos hc]
      exact h w (by simp) hc.symm
    · rw [if_neg hc]
      refine ih x (fun w' hw' => h w' (by simp [hw'])) ?_
      obtain ⟨w', hw', hc'⟩ := he
      rcases List.mem_append.mp hw' with h' | h'
      · exact ⟨w', h', hc'⟩
      · rw [List.mem_singleton.mp h'] at hc'
        exact absurd hc'.symm hc

/-- The assignments for a leaf. -/
def leafWrites (cache : Cache I) (f : P → List K) (lfs : LeafSpace P K) : Option (List (I × K)) :=
  lfs.interpolation.bind fun interp => (List.range lfs.child.size).mapM fun i =>
    ((interp f)[i]?).map fun v => (cache.containerIndex (lfs.child.localIndex i), v)

theorem foldlM_writes {A : Type} (h : A → Option (I × K)) : ∀ (l : List A) (x : I → K),
    l.foldlM (fun x a => (h a).map fun w => assign x w.1 w.2) x = (l.mapM h).map fun ws => applyWrites ws x := by
  intro l
  induction l with
  | nil => intro x; rfl
  | cons a l ih =>
    intro x
    rw [List.foldlM_cons, List.mapM_cons]
    cases h a with
    | none => rfl
    | some w =>
      simp only [Option.map_some, Option.bind_eq_bind, Option.bind_some, ih]
      cases l.mapM h <;> rfl

theorem interpolateLeaf_eq (cache : Cache I) (f : P → List K) (lfs : LeafSpace P K) (x : I → K) :
    interpolateLeaf cache f lfs x = (leafWrites cache f lfs).map fun ws => applyWrites ws x := by
  unfold interpolateLeaf leafWrites
  cases lfs.interpolation with
  | none => rfl
  | some interp =>
    simp only [Option.bind_eq_bind, Option.bind_some]
    rw [← foldlM_writes]
    unfold writeSub
    congr 1
    funext x i
    simp only [Option.bind_eq_bind, Option.pure_def]
    cases (interp f)[i]? <;> rfl

theorem foldlM_writes_list {A : Type} (h : A → Option (List (I × K))) : ∀ (l : List A) (x : I → K),
    l.foldlM (fun x a => (h a).map fun ws => applyWrites ws x) x = (l.mapM h).map fun ws => applyWrites ws.flatten x := by
  intro l
  induction l with
  | nil => intro x; rfl
  | cons a l ih =>
    intro x
    rw [List.foldlM_cons, List.mapM_cons]
    cases h a with
    | none => rfl
    | some w =>
      simp only [Option.map_some, Option.bind_eq_bind, Option.bind_some, ih]
      cases l.mapM h with
      | none => rfl
      | some ws => simp [applyWrites_append]

theorem components_eq (cache : Cache I) (f : P → List K) : ∀ (leaves : List (LeafSpace P K)) (n : Nat) (x : I → K),
    (leaves.foldlM (fun (s : Nat × (I → K)) lfs => do
      let x ← interpolateLeaf cache (fun p => [(f p).getD s.1 0]) lfs s.2
      pure (s.1 + 1, x)) (n, x)).map Prod.snd
    = ((leaves.zipIdx n).mapM fun q => leafWrites cache (fun p => [(f p).getD q.2 0]) q.1).map fun ws => applyWrites ws.flatten x := by
  intro leaves
  induction leaves with
  | nil => intro n x; rfl
  | cons a l ih =>
    intro n x
    rw [List.foldlM_cons, List.zipIdx_cons, List.mapM_cons, interpolateLeaf_eq]
    cases leafWrites cache (fun p => [(f p).getD n 0]) a with
    | none => rfl
    | some w =>
      simp only [Option.map_some, Option.bind_eq_bind, Option.bind_some, Option.pure_def]
      have := ih (n + 1) (applyWrites w x)
      simp only [Option.bind_eq_bind, Option.pure_def] at this
      rw [this]
      cases (l.zipIdx (n + 1)).mapM fun q => leafWrites cache (fun p => [(f p).getD q.2 0]) q.1 with
      | none => rfl
      | some ws => simp [applyWrites_append]

mutual
/-- The assignments of `interpolatePair`. -/
def pairWrites (cache : Cache I) : Functions P K → Spaces P K → Option (List (I × K))
  | .leaf _ f, .leaf lfs => if lfs.child.size = 0 then some [] else leafWrites cache f lfs
  | .leaf dimension f, .node children =>
    if dimension = 1 then ((leavesList children).mapM (leafWrites cache f)).map List.flatten
    else if (leavesList children).length = dimension then
      ((leavesList children).zipIdx.mapM fun q => leafWrites cache (fun p => [(f p).getD q.2 0]) q.1).map List.flatten
    else none
  | .node _, .leaf _ => none
  | .node fs, .node ss => pairsWrites cache fs ss
/-- The assignments of `interpolatePairs`. -/
def pairsWrites (cache : Cache I) : List (Functions P K) → List (Spaces P K) → Option (List (I × K))
  | [], [] => some []
  | f :: fs, s :: ss => (pairWrites cache f s).bind fun ws => (pairsWrites cache fs ss).map fun ws' => ws ++ ws'
  | _, _ => none
end

mutual
theorem interpolatePair_eq (cache : Cache I) : ∀ (f : Functions P K) (s : Spaces P K) (x : I → K),
    interpolatePair cache f s x = (pairWrites cache f s).map fun ws => applyWrites ws x
  | .leaf d f, .leaf lfs, x => by
    simp only [interpolatePair, pairWrites]
    split
    · rfl
    · exact interpolateLeaf_eq cache f lfs x
  | .leaf d f, .node ss, x => by
    simp only [interpolatePair, pairWrites]
    split
    · unfold interpolateScalar
      simp only [interpolateLeaf_eq]
      rw [foldlM_writes_list, Option.map_map]
      rfl
    · split
      · unfold interpolateComponents
        rw [components_eq, Option.map_map]
        rfl
      · rfl
  | .node _, .leaf _, x => by simp [interpolatePair, pairWrites]
  | .node fs, .node ss, x => by
    simp only [interpolatePair, pairWrites]
    exact interpolatePairs_eq cache fs ss x
theorem interpolatePairs_eq (cache : Cache I) : ∀ (fs : List (Functions P K)) (ss : List (Spaces P K)) (x : I → K),
    interpolatePairs cache fs ss x = (pairsWrites cache fs ss).map fun ws => applyWrites ws x
  | [], [], x => by simp [interpolatePairs, pairsWrites, applyWrites]
  | [], _ :: _, x => by simp [interpolatePairs, pairsWrites]
  | _ :: _, [], x => by simp [interpolatePairs, pairsWrites]
  | f :: fs, s :: ss, x => by
    simp only [interpolatePairs, pairsWrites, interpolatePair_eq cache f s x]
    cases pairWrites cache f s with
    | none => rfl
    | some ws =>
      simp only [Option.map_some, Option.bind_eq_bind, Option.bind_some, interpolatePairs_eq cache fs ss]
      cases pairsWrites cache fs ss with
      | none => rfl
      | some ws' => simp [applyWrites_append]
end

theorem mapM_mem {A B : Type} (h : A → Option B) : ∀ (l : List A) (bs : List B), l.mapM h = some bs →
    ∀ b, b ∈ bs ↔ ∃ a ∈ l, h a = some b := by
  intro l
  induction l with
  | nil =>
    intro bs hb b
    rw [List.mapM_nil] at hb
    cases hb
    simp
  | cons a l ih =>
    intro bs hb b
    rw [List.mapM_cons] at hb
    cases ha : h a with
    | none => rw [ha] at hb; cases hb
    | some b0 =>
      rw [ha] at hb
      cases hl : l.mapM h with
      | none => rw [hl] at hb; cases hb
      | some bs0 =>
        rw [hl] at hb
        cases hb
        rw [List.mem_cons, ih bs0 hl b]
        constructor
        · rintro (rfl | ⟨a', h1, h2⟩)
          · exact ⟨a, by simp, ha⟩
          · exact ⟨a', by simp [h1], h2⟩
        · rintro ⟨a', h1, h2⟩
          rcases List.mem_cons.mp h1 with rfl | h1
          · left; rw [ha] at h2; exact (Option.some.inj h2).symm
          · exact Or.inr ⟨a', h1, h2⟩

theorem leafWrites_mem (cache : Cache I) (f : P → List K) (lfs : LeafSpace P K) (ws : List (I × K)) (h : leafWrites cache f lfs = some ws)
    (c : I) (v : K) : (c, v) ∈ ws ↔ ∃ interp, lfs.interpolation = some interp ∧
      ∃ i < lfs.child.size, cache.containerIndex (lfs.child.localIndex i) = c ∧ (interp f)[i]? = some v := by
  unfold leafWrites at h
  cases hi : lfs.interpolation with
  | none => rw [hi] at h; cases h
  | some interp =>
    rw [hi] at h
    simp only [Option.bind_some] at h
    rw [mapM_mem _ _ _ h]
    constructor
    · rintro ⟨i, h1, h2⟩
      obtain ⟨v', h3, h4⟩ := Option.map_eq_some_iff.mp h2
      cases h4
      exact ⟨interp, rfl, i, by simpa using h1, rfl, h3⟩
    · rintro ⟨interp', he, i, h1, h2, h3⟩
      cases he
      exact ⟨i, by simpa using h1, by simp [h2, h3]⟩

theorem leafWrites_size_zero (cache : Cache I) (f : P → List K) (lfs : LeafSpace P K) (c : I) (v : K) (h0 : lfs.child.size = 0) :
    ¬ ∃ interp, lfs.interpolation = some interp ∧
      ∃ i < lfs.child.size, cache.containerIndex (lfs.child.localIndex i) = c ∧ (interp f)[i]? = some v := by
  rintro ⟨_, _, i, hi, _⟩
  omega

theorem mapM_some_mem {A B : Type} (h : A → Option B) : ∀ (l : List A) (bs : List B), l.mapM h = some bs → ∀ a ∈ l, ∃ b, h a = some b := by
  intro l
  induction l with
  | nil => intro _ _ a ha; simp at ha
  | cons a l ih =>
    intro bs hb a' ha'
    rw [List.mapM_cons] at hb
    cases ha : h a with
    | none => rw [ha] at hb; cases hb
    | some b0 =>
      rw [ha] at hb
      cases hl : l.mapM h with
      | none => rw [hl] at hb; cases hb
      | some bs0 =>
        rcases List.mem_cons.mp ha' with rfl | h'
        · exact ⟨b0, ha⟩
        · exact ih bs0 hl a' h'

/-- What `(c,v)` being assigned on the way means. -/
def Hit (cache : Cache I) (f : Functions P K) (s : Spaces P K) (c : I) (v : K) : Prop :=
  ∃ g lfs interp, Assigned f s g lfs ∧ lfs.interpolation = some interp ∧
    ∃ i < lfs.child.size, cache.containerIndex (lfs.child.localIndex i) = c ∧ (interp g)[i]? = some v

mutual
theorem pairWrites_mem (cache : Cache I) : ∀ (f : Functions P K) (s : Spaces P K) (ws : List (I × K)), pairWrites cache f s = some ws →
    ∀ c v, (c, v) ∈ ws ↔ Hit cache f s c v
  | .leaf d f, .leaf lfs, ws, h, c, v => by
    simp only [pairWrites] at h
    by_cases h0 : lfs.child.size = 0
    · rw [if_pos h0] at h
      cases h
      constructor
      · intro h; simp at h
      · rintro ⟨g, lfs', interp, ha, _, i, hi, _⟩
        cases ha
        omega
    · rw [if_neg h0] at h
      rw [leafWrites_mem cache f lfs ws h]
      constructor
      · rintro ⟨interp, h1, h2⟩
        exact ⟨f, lfs, interp, .leaf d f lfs h0, h1, h2⟩
      · rintro ⟨g, lfs', interp, ha, h1, h2⟩
        cases ha
        exact ⟨interp, h1, h2⟩
  | .leaf d f, .node ss, ws, h, c, v => by
    simp only [pairWrites] at h
    by_cases hd : d = 1
    · rw [if_pos hd] at h
      subst hd
      obtain ⟨wss, h1, h2⟩ := Option.map_eq_some_iff.mp h
      subst h2
      rw [List.mem_flatten]
      constructor
      · rintro ⟨ws, h3, h4⟩
        obtain ⟨lfs, h5, h6⟩ := (mapM_mem _ _ _ h1 ws).mp h3
        obtain ⟨interp, h7, h8⟩ := (leafWrites_mem cache f lfs ws h6 c v).mp h4
        exact ⟨f, lfs, interp, .scalar f ss lfs (by rw [Spaces.leaves]; exact h5), h7, h8⟩
      · rintro ⟨g, lfs, interp, ha, h7, h8⟩
        cases ha with
        | scalar _ _ _ hl =>
          rw [Spaces.leaves] at hl
          obtain ⟨ws, h6⟩ := mapM_some_mem _ _ _ h1 lfs hl
          exact ⟨ws, (mapM_mem _ _ _ h1 ws).mpr ⟨lfs, hl, h6⟩, (leafWrites_mem cache f lfs ws h6 c v).mpr ⟨interp, h7, h8⟩⟩
        | vector _ _ _ _ _ hd _ => exact absurd rfl hd
    · rw [if_neg hd] at h
      by_cases hl : (leavesList ss).length = d
      · rw [if_pos hl] at h
        obtain ⟨wss, h1, h2⟩ := Option.map_eq_some_iff.mp h
        subst h2
        rw [List.mem_flatten]
        constructor
        · rintro ⟨ws, h3, h4⟩
          obtain ⟨q, h5, h6⟩ := (mapM_mem _ _ _ h1 ws).mp h3
          obtain ⟨interp, h7, h8⟩ := (leafWrites_mem cache _ q.1 ws h6 c v).mp h4
          refine ⟨_, q.1, interp, .vector d f ss q.1 q.2 hd ?_, h7, h8⟩
          rw [Spaces.leaves]
          exact List.mem_zipIdx_iff_getElem?.mp h5
        · rintro ⟨g, lfs, interp, ha, h7, h8⟩
          cases ha with
          | scalar _ _ _ _ => exact absurd rfl hd
          | vector _ _ _ _ k _ hk =>
            rw [Spaces.leaves] at hk
            have hm : (lfs, k) ∈ (leavesList ss).zipIdx := List.mem_zipIdx_iff_getElem?.mpr hk
            obtain ⟨ws, h6⟩ := mapM_some_mem _ _ _ h1 (lfs, k) hm
            exact ⟨ws, (mapM_mem _ _ _ h1 ws).mpr ⟨(lfs, k), hm, h6⟩, (leafWrites_mem cache _ lfs ws h6 c v).mpr ⟨interp, h7, h8⟩⟩
      · rw [if_neg hl] at h
        cases h
  | .node _, .leaf _, ws, h, c, v => by simp [pairWrites] at h
  | .node fs, .node ss, ws, h, c, v => by
    simp only [pairWrites] at h
    rw [pairsWrites_mem cache fs ss ws h c v]
    constructor
    · rintro ⟨k, f, s, hf, hs, g, lfs, interp, ha, h7, h8⟩
      exact ⟨g, lfs, interp, .node fs ss k f s g lfs hf hs ha, h7, h8⟩
    · rintro ⟨g, lfs, interp, ha, h7, h8⟩
      cases ha with
      | node _ _ k f s _ _ hf hs ha => exact ⟨k, f, s, hf, hs, g, lfs, interp, ha, h7, h8⟩
theorem pairsWrites_mem (cache : Cache I) : ∀ (fs : List (Functions P K)) (ss : List (Spaces P K)) (ws : List (I × K)),
    pairsWrites cache fs ss = some ws →
    ∀ c v, (c, v) ∈ ws ↔ ∃ (k : Nat) (f : Functions P K) (s : Spaces P K), fs[k]? = some f ∧ ss[k]? = some s ∧ Hit cache f s c v
  | [], [], ws, h, c, v => by
    simp only [pairsWrites] at h
    cases h
    simp
  | [], _ :: _, ws, h, c, v => by simp [pairsWrites] at h
  | _ :: _, [], ws, h, c, v => by simp [pairsWrites] at h
  | f :: fs, s :: ss, ws, h, c, v => by
    simp only [pairsWrites] at h
    obtain ⟨w1, h1, h2⟩ := Option.bind_eq_some_iff.mp h
    obtain ⟨w2, h3, h4⟩ := Option.map_eq_some_iff.mp h2
    subst h4
    rw [List.mem_append, pairWrites_mem cache f s w1 h1 c v, pairsWrites_mem cache fs ss w2 h3 c v]
    constructor
    · rintro (hh | ⟨k, f', s', hf, hs, hh⟩)
      · exact ⟨0, f, s, rfl, rfl, hh⟩
      · exact ⟨k + 1, f', s', by simpa using hf, by simpa using hs, hh⟩
    · rintro ⟨k, f', s', hf, hs, hh⟩
      cases k with
      | zero =>
        simp only [List.getElem?_cons_zero, Option.some.injEq] at hf hs
        subst hf hs
        exact Or.inl hh
      | succ k => exact Or.inr ⟨k, f', s', by simpa using hf, by simpa using hs, hh⟩
end

theorem interpolate_eq : ∀ (es : List (Element I P K)) (x : I → K),
    interpolate es x = (es.mapM fun e => pairWrites e.cache e.functions e.spaces).map fun ws => applyWrites ws.flatten x := by
  intro es x
  unfold interpolate
  simp only [interpolatePair_eq]
  exact foldlM_writes_list _ es x

theorem interpolate_writes (es : List (Element I P K)) (x x' : I → K) (h : interpolate es x = some x') :
    ∃ ws : List (I × K), x' = applyWrites ws x ∧ ∀ c v, (c, v) ∈ ws ↔ ∃ e ∈ es, Coefficient e c v := by
  rw [interpolate_eq] at h
  obtain ⟨wss, h1, h2⟩ := Option.map_eq_some_iff.mp h
  refine ⟨wss.flatten, h2.symm, ?_⟩
  intro c v
  rw [List.mem_flatten]
  constructor
  · rintro ⟨ws, h3, h4⟩
    obtain ⟨e, h5, h6⟩ := (mapM_mem _ _ _ h1 ws).mp h3
    exact ⟨e, h5, (pairWrites_mem e.cache e.functions e.spaces ws h6 c v).mp h4⟩
  · rintro ⟨e, h5, h6⟩
    obtain ⟨ws, h7⟩ := mapM_some_mem _ _ _ h1 e h5
    exact ⟨ws, (mapM_mem _ _ _ h1 ws).mpr ⟨e, h5, h7⟩, (pairWrites_mem e.cache e.functions e.spaces ws h7 c v).mpr h6⟩

theorem mapM_isSome {A B : Type} (h : A → Option B) : ∀ (l : List A), (∀ a ∈ l, ∃ b, h a = some b) → ∃ bs, l.mapM h = some bs := by
  intro l
  induction l with
  | nil => intro _; exact ⟨[], rfl⟩
  | cons a l ih =>
    intro hall
    obtain ⟨b, hb⟩ := hall a (by simp)
    obtain ⟨bs, hbs⟩ := ih fun a ha => hall a (by simp [ha])
    exact ⟨b :: bs, by rw [List.mapM_cons, hb, hbs]; rfl⟩

theorem leafWrites_some (cache : Cache I) (f : P → List K) (lfs : LeafSpace P K) (h : Ready lfs) : ∃ ws, leafWrites cache f lfs = some ws := by
  obtain ⟨interp, h1, h2⟩ := h
  unfold leafWrites
  rw [h1, Option.bind_some]
  refine mapM_isSome _ _ ?_
  intro i hi
  have hi' : i < (interp f).length := by rw [h2]; simpa using hi
  exact ⟨_, by rw [List.getElem?_eq_getElem hi']; rfl⟩

theorem pairsWrites_some (cache : Cache I) : ∀ (fs : List (Functions P K)) (ss : List (Spaces P K)), fs.length = ss.length →
    (∀ (k : Nat) f s, fs[k]? = some f → ss[k]? = some s → ∃ ws, pairWrites cache f s = some ws) → ∃ ws, pairsWrites cache fs ss = some ws
  | [], [], _, _ => ⟨[], by simp [pairsWrites]⟩
  | [], _ :: _, h, _ => by simp at h
  | _ :: _, [], h, _ => by simp at h
  | f :: fs, s :: ss, h, hall => by
    obtain ⟨w1, h1⟩ := hall 0 f s rfl rfl
    obtain ⟨w2, h2⟩ := pairsWrites_some cache fs ss (by simpa using h) fun k f' s' hf hs => hall (k + 1) f' s' (by simpa using hf) (by simpa using hs)
    exact ⟨w1 ++ w2, by simp [pairsWrites, h1, h2]⟩

theorem pairWrites_some (cache : Cache I) (f : Functions P K) (s : Spaces P K) (h : Fits f s) : ∃ ws, pairWrites cache f s = some ws := by
  induction h with
  | leaf d f lfs h =>
    simp only [pairWrites]
    split
    · exact ⟨_, rfl⟩
    · rename_i h0
      exact leafWrites_some cache f lfs (h.resolve_left h0)
  | scalar f ss h =>
    simp only [pairWrites, if_true]
    rw [Spaces.leaves] at h
    obtain ⟨wss, hw⟩ := mapM_isSome (leafWrites cache f) (leavesList ss) fun a ha => leafWrites_some cache f a (h a ha)
    exact ⟨wss.flatten, by rw [hw]; rfl⟩
  | vector d f ss hd h =>
    rw [Spaces.leaves] at h hd
    simp only [pairWrites]
    split
    · obtain ⟨wss, hw⟩ := mapM_isSome (leafWrites cache f) (leavesList ss) fun a ha => leafWrites_some cache f a (h a ha)
      exact ⟨wss.flatten, by rw [hw]; rfl⟩
    · obtain ⟨wss, hw⟩ := mapM_isSome (fun q => leafWrites cache (fun p => [(f p).getD q.2 0]) q.1) (leavesList ss).zipIdx fun q hq =>
        leafWrites_some cache _ q.1 (h q.1 (List.mem_of_getElem? (List.mem_zipIdx_iff_getElem?.mp hq)))
      exact ⟨wss.flatten, by rw [hw]; rfl⟩
  | node fs ss hl _ ih =>
    simp only [pairWrites]
    exact pairsWrites_some cache fs ss hl ih

end Verif.Views
