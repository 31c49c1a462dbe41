import Verif.Proofs.BackendStorage
import Mathlib.Algebra.Ring.Int.Defs

/-!
# C192, C193: vectors and matrices as values
-/

set_option linter.unusedSectionVars false

namespace Verif

open Verif.BackendStorage

section

variable {K : Type} [Ring K]

/-- **C192** (values).  As long as containers are not handed around explicitly,
vectors behave like variables holding lists of numbers: for every sequence of
constructions, copies, moves, assignments, `detach()` and arithmetic operations
the contents of all vectors are those of the variables, and the sequence is
defined exactly if no operation reads a vector without content, an entry which
does not exist or a vector shorter than the one it is combined with. -/
theorem C192_values (h : List (Event K)) (hp : ∀ e ∈ h, Private e) :
    (run State.init h).map values = meanings [] h := by
  refine sim_run h init_valid ?_ ?_ hp
  · intro i j a hi; simp [State.address, State.init] at hi
  · refine ⟨rfl, ?_⟩
    intro i
    simp [content, State.value, State.address, State.init]

/-- **C192** (shared containers).  With shared containers: an operation on a vector
gives it the content the specification says, computed from the contents before
the operation, even if its operands are the same vector or share a container. -/
theorem C192_result (h : List (Event K)) (st st' : State K) (hr : run State.init h = some st)
    (e : Event K) (hs : step st e = some st') (i : Nat) (hi : inPlace st e = some i) :
    ∃ vars', meaning (values st) e = some vars' ∧ st'.value i = content vars' i := by
  have hv := run_valid init_valid hr
  obtain ⟨a, c, vars', ha, rfl, hm, hc⟩ := step_inPlace hv hs hi
  refine ⟨vars', hm, ?_⟩
  rw [hc, value_heap_set st (hv i a ha), if_pos ha]

/-- **C192** (no other effects).  An operation changes the content of a vector only
if it changes its pointer, or works on the container it points to; otherwise all
existing vectors keep their pointer and their content. -/
theorem C192_frame (h : List (Event K)) (st st' : State K) (hr : run State.init h = some st)
    (e : Event K) (hs : step st e = some st') (j : Nat) (hj : j < st.vecs.length)
    (hb : j ∉ rebinds st e) :
    st'.address j = st.address j ∧
    ((∀ a, touched st e = some a → st.address j ≠ some a) → st'.value j = st.value j) :=
  step_frame (run_valid init_valid hr) hs hj hb

/-- **C192** (attach).  After `x_i.attach(x_j.storage())` the two vectors have the
same content, whatever is done to them or to others, until the pointer of one of
them is changed. -/
theorem C192_attach (h : List (Event K)) (st st₁ st₂ : State K) (hr : run State.init h = some st)
    (i j : Nat) (hs : step st (.attach i j) = some st₁) (h' : List (Event K))
    (hk : KeepsPointers i j st₁ h') (hr' : run st₁ h' = some st₂) :
    st₂.value i = st₂.value j := by
  have hv := run_valid init_valid hr
  have hs' := hs
  simp only [step] at hs
  split at hs
  · rename_i hij
    simp only [Option.some.injEq] at hs
    subst hs
    refine run_shared h' (step_valid hv hs') (by simpa using hij.1) (by simpa using hij.2) ?_ hk hr'
    rw [address_set _ _ _ _ hij.1, address_set _ _ _ _ hij.1, if_pos rfl]
    split
    · rfl
    · rfl
  · simp at hs

end

/-- A history without handing containers around: copies are independent. -/
example :
    (run State.init ([.construct 3, .fill 0 (2 : Int), .copy 3 0, .axpy 0 5 1, .write 1 2 7,
      .constructUnattached, .assign 2 0, .detach 0, .add 2 2] : List (Event Int))).map values
    = some [none, some [2, 2, 7], some [24, 24, 24]] := by
  decide +kernel

/-- A history with shared containers: the hypotheses of `C192_attach` and
`C192_result` are met. -/
example :
    (run State.init ([.container [1, 2], .constructExternal 3 0, .constructUnattached,
      .attach 1 0, .axpy 1 2 0, .write 0 0 9] : List (Event Int))).map values
    = some [some [9, 6, 0], some [9, 6, 0]] := by
  decide +kernel

example : ∃ st st₁ st₂ : State Int,
    run State.init [.construct 2, .constructUnattached] = some st ∧
    step st (.attach 1 0) = some st₁ ∧ KeepsPointers 1 0 st₁ [.fill 1 4, .shift 0 1] ∧
    run st₁ [.fill 1 4, .shift 0 1] = some st₂ ∧ st₂.value 1 = some [5, 5] := by
  refine ⟨⟨[[0, 0]], [some 0, none]⟩, ⟨[[0, 0]], [some 0, some 0]⟩, ⟨[[5, 5]], [some 0, some 0]⟩,
    rfl, rfl, ?_, rfl, rfl⟩
  simp [KeepsPointers, rebinds]

/-- Undefined operations are recognised: use of a detached vector, and vectors of
different size. -/
example :
    (run State.init ([.construct 2, .detach 0, .fill 0 1] : List (Event Int))).map values = none ∧
    (run State.init ([.construct 2, .construct 1, .add 0 1] : List (Event Int))).map values = none ∧
    (run State.init ([.construct 2, .construct 1, .add 1 0] : List (Event Int))).map values
      = some [some [0, 0], some [0]] := by
  decide +kernel

/-! ## C193 -/

section

variable {K : Type} [Ring K]

/-- **C193** (dense matrices, partial: see `C193_assign_false` and
`C193_attach_false`).  A newly constructed matrix of the simple backend has the
sizes of its spaces and all entries equal to the given number; copies are equal
to the original; an assignment makes matrices equal if they had the same sizes or
the target had none. -/
theorem C193_dense_partial :
    (∀ (n m : Nat) (e : K), (Dense.construct n m e).IsMatrix n m fun _ _ => e) ∧
    (∀ (b c : Dense K) (n m : Nat) (f : Nat → Nat → K), b.IsMatrix n m f → b.copy = some c →
      c.IsMatrix n m f) ∧
    (∀ (a b c : Dense K) (n m : Nat) (f : Nat → Nat → K), b.IsMatrix n m f →
      (a.rows = 0 ∧ a.cols = 0 ∨ a.rows = n ∧ a.cols = m) → a.assign b = some c →
      c.IsMatrix n m f) := by
  refine ⟨?_, ?_, ?_⟩
  · intro n m e
    refine ⟨rfl, rfl, ?_⟩
    intro i hi j hj
    simp only [Dense.entry, Dense.construct]
    have hlt : i * m + j < n * m := by
      calc i * m + j < i * m + m := by omega
        _ = (i + 1) * m := by rw [Nat.add_mul, Nat.one_mul]
        _ ≤ n * m := Nat.mul_le_mul_right m hi
    simp [hlt]
  · intro b c n m f hb hc
    unfold Dense.copy at hc
    cases hd : b.data with
    | none => rw [hd] at hc; simp at hc
    | some d =>
      rw [hd] at hc
      simp only [Option.some.injEq] at hc
      subst hc
      refine ⟨hb.1, hb.2.1, ?_⟩
      intro i hi j hj
      have := hb.2.2 i hi j hj
      unfold Dense.entry at this ⊢
      rw [hd] at this
      exact this
  · intro a b c n m f hb ha hc
    unfold Dense.assign at hc
    cases hd : b.data with
    | none => rw [hd] at hc; simp at hc
    | some d =>
      rw [hd] at hc
      dsimp only at hc
      have hent : ∀ i < n, ∀ j < m, d[i * m + j]? = some (f i j) := by
        intro i hi j hj
        have := hb.2.2 i hi j hj
        unfold Dense.entry at this
        rw [hd, hb.2.1] at this
        exact this
      split at hc
      · simp only [Option.some.injEq] at hc
        subst hc
        refine ⟨hb.1, hb.2.1, ?_⟩
        intro i hi j hj
        simp only [Dense.entry]
        rw [hb.2.1]
        exact hent i hi j hj
      · rename_i h0
        rcases ha with ha | ha
        · exact absurd ha h0
        · simp only [Option.some.injEq] at hc
          subst hc
          refine ⟨ha.1, ha.2, ?_⟩
          intro i hi j hj
          simp only [Dense.entry]
          rw [ha.2]
          exact hent i hi j hj

/-- **C193** (default construction). A matrix constructed without a grid operator, with or without a container, takes the sizes and entries of the matrix
first assigned to it. -/
theorem C193_default_constructed (b : Dense K) (n m : Nat) (f : Nat → Nat → K) (hb : b.IsMatrix n m f) (hd : b.data ≠ none)
    (a : Dense K) (ha : a = Dense.unattached ∨ a = Dense.empty) : ∃ c, a.assign b = some c ∧ c.IsMatrix n m f := by
  have h0 : a.rows = 0 ∧ a.cols = 0 := by rcases ha with rfl | rfl <;> exact ⟨rfl, rfl⟩
  cases hb' : b.data with
  | none => exact absurd hb' hd
  | some x =>
    have : ∃ c, a.assign b = some c := by
      unfold Dense.assign
      rw [hb']
      dsimp only
      rw [if_pos h0]
      exact ⟨_, rfl⟩
    obtain ⟨c, hc⟩ := this
    exact ⟨c, hc, C193_dense_partial.2.2 a b c n m f hb (.inl h0) hc⟩

end

/-- The hypotheses are met by an assignment to a matrix without content. -/
example : ∃ c, (Dense.unattached : Dense Int).assign (Dense.construct 2 3 7) = some c ∧
    c.IsMatrix 2 3 fun _ _ => 7 :=
  ⟨_, rfl, C193_dense_partial.1 2 3 7⟩

/-- **C193** (false for assignments between different sizes).  After
`a.detach(); a = b;` (or `a = b` alone) where `a` was made for a smaller space,
`a` has the entries of `b` but its old sizes: element (1,0) of `a` is element
(0,2) of `b`. -/
theorem C193_assign_false :
    let b : Dense Int := ⟨3, 3, some [0, 1, 2, 3, 4, 5, 6, 7, 8]⟩
    let a : Dense Int := Dense.construct 2 2 0
    b.entry 1 0 = some 3 ∧
    (a.detach.assign b).map (fun c => (c.rows, c.cols, c.entry 1 0)) = some (2, 2, some 2) ∧
    (a.assign b).map (fun c => (c.rows, c.cols, c.entry 1 0)) = some (2, 2, some 2) := by
  decide +kernel

/-- **C193** (false for `attach`).  A matrix constructed without container which is
attached to the container of another one has no sizes, and all its rows are the
first row. -/
theorem C193_attach_false :
    let b : Dense Int := ⟨2, 2, some [1, 2, 3, 4]⟩
    let a : Dense Int := Dense.unattached.attach [1, 2, 3, 4]
    b.entry 1 0 = some 3 ∧ a.rows = 0 ∧ a.cols = 0 ∧ a.entry 1 0 = some 1 := by
  decide +kernel

/-- The operations on an ISTL matrix which do not change the pattern behind its
back: `f` changes entries only, so that the statistics stay the same. -/
inductive SparseOp {C S : Type} (statistics : C → List S) where
  | rebuild (c : C)
  | assign (b : Sparse C S)
  | copy
  | detach
  | modify (f : C → C) (h : ∀ c, statistics (f c) = statistics c)

/-- The effect of an operation on a matrix; `rebuild` is the construction of a
new matrix for a grid operator, `copy` continues with a copy. -/
def SparseOp.apply {C S : Type} {statistics : C → List S} (a : Sparse C S) :
    SparseOp statistics → Option (Sparse C S)
  | .rebuild c => some (Sparse.construct statistics c)
  | .assign b => a.assign b
  | .copy => a.copy
  | .detach => some a.detach
  | .modify f _ => a.modify f

/-- **C193** (statistics).  Without `attach`, after any sequence of operations the
statistics a matrix reports are those of the pattern it has. -/
theorem C193_statistics {C S : Type} (statistics : C → List S) (ops : List (SparseOp statistics))
    (a : Sparse C S) (h : ops.foldlM SparseOp.apply Sparse.unattached = some a) (s : List S)
    (hs : a.patternStatistics = some s) : ∃ c, a.container = some c ∧ statistics c = s := by
  have inv : ∀ (ops : List (SparseOp statistics)) (a b : Sparse C S),
      (a.stats ≠ [] → ∃ c, a.container = some c ∧ statistics c = a.stats) →
      ops.foldlM SparseOp.apply a = some b →
      (b.stats ≠ [] → ∃ c, b.container = some c ∧ statistics c = b.stats) := by
    intro ops
    induction ops with
    | nil =>
      intro a b ha hab
      simp only [List.foldlM_nil, Option.pure_def, Option.some.injEq] at hab
      subst hab; exact ha
    | cons o ops ih =>
      intro a b ha hab
      rw [List.foldlM_cons] at hab
      cases ho : SparseOp.apply a o with
      | none => rw [ho] at hab; simp at hab
      | some a' =>
        rw [ho] at hab
        refine ih a' b ?_ hab
        cases o with
        | rebuild c =>
          simp only [SparseOp.apply, Option.some.injEq] at ho
          subst ho
          exact fun _ => ⟨c, rfl, rfl⟩
        | assign b' =>
          simp only [SparseOp.apply, Sparse.assign] at ho
          split at ho
          · simp only [Option.some.injEq] at ho
            subst ho; exact fun h => absurd rfl h
          · simp at ho
        | copy =>
          simp only [SparseOp.apply, Sparse.copy] at ho
          split at ho
          · simp only [Option.some.injEq] at ho
            subst ho; exact fun h => absurd rfl h
          · simp at ho
        | detach =>
          simp only [SparseOp.apply, Sparse.detach, Option.some.injEq] at ho
          subst ho; exact fun h => absurd rfl h
        | modify f hf =>
          simp only [SparseOp.apply, Sparse.modify] at ho
          cases hc : a.container with
          | none => rw [hc] at ho; simp at ho
          | some c =>
            rw [hc] at ho
            simp only [Option.some.injEq] at ho
            subst ho
            intro hne
            obtain ⟨c', h1, h2⟩ := ha hne
            rw [hc] at h1
            obtain rfl := Option.some.inj h1
            exact ⟨f c, rfl, by rw [hf]; exact h2⟩
  have hfin := inv ops Sparse.unattached a (fun h => absurd rfl h) h
  unfold Sparse.patternStatistics at hs
  split at hs
  · simp at hs
  · rename_i hne
    simp only [Option.some.injEq] at hs
    subst hs
    exact hfin (by simpa using hne)

/-- There are such sequences which end with statistics. -/
example : ∃ a : Sparse (Nat × Int) Nat,
    ([.rebuild (3, 0), .modify (fun c => (c.1, 2 * c.2)) (fun _ => rfl)]
      : List (SparseOp fun c : Nat × Int => [c.1])).foldlM SparseOp.apply Sparse.unattached = some a ∧
    a.patternStatistics = some [3] :=
  ⟨_, rfl, rfl⟩

/-- **C193** (statistics, false for copies and for `attach`).  A copy of a matrix
with statistics has none, and a matrix attached to another container reports the
statistics of the former one. -/
theorem C193_statistics_false :
    let a : Sparse Nat Nat := Sparse.construct (fun c => [c]) 3
    a.patternStatistics = some [3] ∧
    (a.copy.map fun b => (b.container, b.patternStatistics)) = some (some 3, none) ∧
    (a.attach 5).container = some 5 ∧ (a.attach 5).patternStatistics = some [3] := by
  decide +kernel

end Verif
