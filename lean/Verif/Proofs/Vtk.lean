import Verif.Spec.Vtk
import Mathlib.Data.List.Induction
import Mathlib.Data.List.Basic
import Mathlib.Tactic.Ring
import Mathlib.Algebra.BigOperators.Group.Finset.Basic

/-!
# Proofs about the output to VTK files
-/

set_option linter.unusedSectionVars false

namespace Verif.Vtk

variable {Cell Pt K : Type} [Ring K]

/-! ## Values -/

theorem foldl_axpy (a : Nat → K) (b : Nat → Nat → K) (n c : Nat) :
    (List.range n).foldl (fun y i => axpy y (a i) (b i)) (fun _ => (0 : K)) c
      = ∑ i ∈ Finset.range n, a i * b i c := by
  induction n with
  | zero => rfl
  | succ n ih =>
    rw [List.range_succ, List.foldl_append, List.foldl_cons, List.foldl_nil,
      Finset.sum_range_succ, ← ih]
    rfl

theorem foldl_add (a : Nat → K) (n : Nat) :
    (List.range n).foldl (fun y i => y + a i) (0 : K) = ∑ i ∈ Finset.range n, a i := by
  induction n with
  | zero => rfl
  | succ n ih =>
    rw [List.range_succ, List.foldl_append, List.foldl_cons, List.foldl_nil,
      Finset.sum_range_succ, ← ih]

/-- The data of a cell have been loaded. -/
def Loaded (d : Data Pt K) (w : World Cell Pt K) (cell : Cell) : Prop :=
  d.xLocal = (fun leaf => (w.dofs cell leaf).map w.x) ∧ d.fe = w.basis cell ∧
    d.current = w.index cell

theorem getD_map_x (w : World Cell Pt K) (l : List Nat) {i : Nat} (h : i < l.length) :
    (l.map w.x).getD i 0 = w.x (l.getD i 0) := by
  simp [List.getD, h]

theorem evalLeaf_loaded {d : Data Pt K} {w : World Cell Pt K} {cell : Cell}
    (h : Loaded d w cell) (l c : Nat) (pt : Pt) :
    evalLeaf d l pt c = leafValue w l c cell pt := by
  obtain ⟨h1, h2, _⟩ := h
  unfold evalLeaf leafValue
  have hl : (d.xLocal l).length = (w.dofs cell l).length := by rw [h1]; simp
  by_cases h0 : (d.xLocal l).length = 0
  · rw [if_neg (by simpa using h0), ← hl, h0]
    simp
  · rw [if_pos h0, foldl_axpy, hl]
    refine Finset.sum_congr rfl fun i hi => ?_
    rw [h2, h1]
    dsimp only
    rw [getD_map_x w _ (Finset.mem_range.1 hi)]

theorem evalComponent_loaded {d : Data Pt K} {w : World Cell Pt K} {cell : Cell}
    (h : Loaded d w cell) (l : Nat) (pt : Pt) :
    evalComponent d l pt = leafValue w l 0 cell pt := by
  obtain ⟨h1, h2, _⟩ := h
  unfold evalComponent leafValue
  have hl : (d.xLocal l).length = (w.dofs cell l).length := by rw [h1]; simp
  rw [foldl_add, hl]
  refine Finset.sum_congr rfl fun i hi => ?_
  rw [h2, h1]
  dsimp only
  rw [getD_map_x w _ (Finset.mem_range.1 hi)]

theorem dimRange_eq (f : Function) : f.dimRange = numComponents f := by
  cases f <;> rfl

/-- The value of an adapter, once the data of the cell are loaded. -/
theorem adapter_loaded {d : Data Pt K} {w : World Cell Pt K} {cell : Cell}
    (h : Loaded (d.bind w cell) w cell) (f : Function) (remap : List Nat) (comp : Nat) (pt : Pt) :
    adapterEvaluate w d f remap comp cell pt
      = (d.bind w cell, remap[comp]?.bind fun c =>
          if c < numComponents f then some (value w f c cell pt) else none) := by
  rw [← dimRange_eq f]
  have hv : evaluate w d f cell pt = (d.bind w cell, fun c => value w f c cell pt) := by
    cases f with
    | leaf l n =>
      simp only [evaluate, value]
      congr 1
      funext c
      exact evalLeaf_loaded h l c pt
    | vector ls =>
      simp only [evaluate, value]
      congr 1
      funext c
      unfold evalVector
      cases ls[c]? with
      | none => rfl
      | some l => exact evalComponent_loaded h l pt
  unfold adapterEvaluate
  rw [hv]
  dsimp only
  cases remap[comp]? with
  | none => rfl
  | some c =>
    dsimp only [Option.bind_some]
    split <;> rfl

theorem bind_ne {d : Data Pt K} {w : World Cell Pt K} {cell : Cell}
    (h : d.current ≠ w.index cell) : Loaded (d.bind w cell) w cell := by
  unfold Data.bind
  simp only [if_neg h]
  exact ⟨rfl, rfl, rfl⟩

theorem bind_loaded {d : Data Pt K} {w : World Cell Pt K} {cell : Cell}
    (h : Loaded d w cell) : Loaded (d.bind w cell) w cell := by
  unfold Data.bind
  simp only [if_pos h.2.2]
  exact h

theorem run_append (s : World Cell Pt K × Data Pt K) (a b : List (Event Cell Pt K)) :
    run s (a ++ b) = ((run (run s a).1 b).1, (run s a).2 ++ (run (run s a).1 b).2) := by
  induction a generalizing s with
  | nil => rfl
  | cons e a ih =>
    simp only [List.cons_append, run]
    rw [ih]
    simp

theorem run_world (s : World Cell Pt K × Data Pt K) (h : List (Event Cell Pt K)) :
    (run s h).1.1 = worldAfter s.1 h := by
  induction h generalizing s with
  | nil => rfl
  | cons e h ih =>
    cases e with
    | change w => exact ih _
    | eval f r k c p => exact ih _

theorem worldAfter_append (w : World Cell Pt K) (a b : List (Event Cell Pt K)) :
    worldAfter w (a ++ b) = worldAfter (worldAfter w a) b := by
  induction a generalizing w with
  | nil => rfl
  | cons e a ih =>
    cases e with
    | change w' => exact ih _
    | eval f r k c p => exact ih _

theorem expected_append (w : World Cell Pt K) (a b : List (Event Cell Pt K)) :
    expected w (a ++ b) = expected w a ++ expected (worldAfter w a) b := by
  induction a generalizing w with
  | nil => rfl
  | cons e a ih =>
    cases e with
    | change w' => exact ih _
    | eval f r k c p => simp only [List.cons_append, expected, worldAfter]; rw [ih]

theorem worldAfter_numbered {noCell : Nat} {w : World Cell Pt K} {h : List (Event Cell Pt K)}
    (hw : Numbered noCell w) (hc : ∀ w', .change w' ∈ h → Numbered noCell w') :
    Numbered noCell (worldAfter w h) := by
  induction h generalizing w with
  | nil => exact hw
  | cons e h ih =>
    cases e with
    | change w' =>
      exact ih (hc w' (by simp)) fun w'' hm => hc w'' (List.mem_cons_of_mem _ hm)
    | eval f r k c p => exact ih hw fun w'' hm => hc w'' (List.mem_cons_of_mem _ hm)

/-- What is known about the common data after a history. -/
def Inv (noCell : Nat) (w : World Cell Pt K) (h : List (Event Cell Pt K)) (d : Data Pt K) : Prop :=
  d.current = noCell ∨
  ∃ pre f r k c p mid, h = pre ++ .eval f r k c p :: mid ∧ (∀ e ∈ mid, e.IsChange) ∧
    Loaded d (worldAfter w pre) c

theorem run_correct (noCell : Nat) (w : World Cell Pt K) (h : List (Event Cell Pt K))
    (hw : Numbered noCell w) (hc : ∀ w', .change w' ∈ h → Numbered noCell w')
    (hm : MovesOn w h) :
    (run (w, Data.init noCell) h).2 = expected w h ∧
      Inv noCell w h (run (w, Data.init noCell) h).1.2 := by
  induction h using List.reverseRecOn with
  | nil => exact ⟨rfl, Or.inl rfl⟩
  | append_singleton h e ih =>
    have hm' : MovesOn w h := by
      intro pre f₁ r₁ k₁ c₁ p₁ mid f₂ r₂ k₂ c₂ p₂ post hh
      refine hm pre f₁ r₁ k₁ c₁ p₁ mid f₂ r₂ k₂ c₂ p₂ (post ++ [e]) ?_
      rw [hh]; simp
    have hc' : ∀ w', .change w' ∈ h → Numbered noCell w' := fun w' hw' => hc w' (by simp [hw'])
    obtain ⟨ih1, ih2⟩ := ih hc' hm'
    rw [run_append, expected_append, ih1]
    have hworld := run_world (w, (Data.init noCell : Data Pt K)) h
    dsimp only at hworld
    cases e with
    | change w' =>
      refine ⟨by simp [run, step, expected], ?_⟩
      simp only [run, step]
      rcases ih2 with h0 | ⟨pre, f, r, k, c, p, mid, h1, h2, h3⟩
      · exact Or.inl h0
      · refine Or.inr ⟨pre, f, r, k, c, p, mid ++ [.change w'], by rw [h1]; simp, ?_, h3⟩
        intro e he
        rcases List.mem_append.1 he with he | he
        · exact h2 e he
        · rw [List.mem_singleton.1 he]; trivial
    | eval f r k c p =>
      have hnum := worldAfter_numbered hw hc'
      have hload : Loaded ((run (w, Data.init noCell) h).1.2.bind (worldAfter w h) c)
          (worldAfter w h) c := by
        rcases ih2 with h0 | ⟨pre, f', r', k', c', p', mid, h1, h2, h3⟩
        · exact bind_ne (by rw [h0]; exact (Nat.ne_of_lt (hnum.2 c)).symm)
        · by_cases hmid : mid = []
          · subst hmid
            have hwe : worldAfter w h = worldAfter w pre := by
              rw [h1, worldAfter_append]; rfl
            rw [← hwe] at h3
            by_cases hcc : c = c'
            · subst hcc; exact bind_loaded h3
            · refine bind_ne ?_
              rw [h3.2.2]
              exact fun heq => hcc (hnum.1 heq).symm
          · refine bind_ne ?_
            rw [h3.2.2]
            have := hm pre f' r' k' c' p' mid f r k c p [] (by rw [h1]; simp) hmid h2
            rw [← h1] at this
            exact this
      have hstep : run (run (w, Data.init noCell) h).1 [.eval f r k c p]
          = ((worldAfter w h, (run (w, Data.init noCell) h).1.2.bind (worldAfter w h) c),
              expected (worldAfter w h) [.eval f r k c p]) := by
        simp only [run, step, expected]
        rw [hworld, adapter_loaded hload]
        simp
      rw [hstep]
      exact ⟨rfl, Or.inr ⟨h, f, r, k, c, p, [], rfl, by simp, hload⟩⟩

/-! ## Ranges -/

theorem rangeLoop_get (fuel i e inc j : Nat) (hi : 0 < inc) (hf : e - i ≤ fuel) :
    (rangeLoop fuel i e inc)[j]? = if i + j * inc < e then some (i + j * inc) else none := by
  induction fuel generalizing i j with
  | zero =>
    rw [if_neg (by omega)]; rfl
  | succ fuel ih =>
    unfold rangeLoop
    by_cases h : i < e
    · rw [if_pos h]
      cases j with
      | zero => simp [h]
      | succ j =>
        rw [List.getElem?_cons_succ, ih (i + inc) j (by omega)]
        have : i + inc + j * inc = i + (j + 1) * inc := by ring
        rw [this]
    · rw [if_neg h, if_neg (by omega)]; rfl

/-! ## The registered functions -/

mutual

/-- The components of a tree in the order in which they are visited. -/
def comps (predicate : Path → Bool) : Space → Path → List (Text × Kind × Path)
  | .leaf name kind same, tp => if same && predicate tp then [(name, kind, tp)] else []
  | .vector name kind same _, tp => if same && predicate tp then [(name, kind, tp)] else []
  | .inner _ children, tp => compsChildren predicate children tp 0

/-- The components of the children of a node. -/
def compsChildren (predicate : Path → Bool) : List Space → Path → Nat → List (Text × Kind × Path)
  | [], _, _ => []
  | s :: ss, tp, i => comps predicate s (tp ++ [i]) ++ compsChildren predicate ss tp (i + 1)

end

/-- Registration of components until an exception. -/
def addAll (gen : Text → Path → Option Text) :
    List (Text × Kind × Path) → List Entry → List Entry × Bool
  | [], out => (out, true)
  | c :: cs, out =>
    match gen c.1 c.2.2 with
    | none => (out, false)
    | some n => addAll gen cs (out ++ [⟨c.2.1, n, c.2.2⟩])

theorem addAll_append (gen : Text → Path → Option Text) (a b : List (Text × Kind × Path))
    (out : List Entry) :
    addAll gen (a ++ b) out
      = if (addAll gen a out).2 then addAll gen b (addAll gen a out).1 else addAll gen a out := by
  induction a generalizing out with
  | nil => simp [addAll]
  | cons c a ih =>
    simp only [List.cons_append, addAll]
    rcases Option.eq_none_or_eq_some (gen c.1 c.2.2) with h | ⟨n, h⟩
    · simp [h]
    · simp only [h]; exact ih _

theorem addToWriter_eq (gen : Text → Path → Option Text) (name : Text) (kind : Kind) (tp : Path)
    (out : List Entry) :
    addToWriter gen name kind tp out = addAll gen [(name, kind, tp)] out := by
  unfold addToWriter
  simp only [addAll]
  cases gen name tp with
  | none => rfl
  | some n => cases kind <;> rfl

mutual

theorem visit_eq (gen : Text → Path → Option Text) (predicate : Path → Bool) :
    ∀ (s : Space) (tp : Path) (out : List Entry),
      visit gen predicate s tp out = addAll gen (comps predicate s tp) out
  | .leaf name kind same, tp, out => by
    simp only [visit, comps, addToWriter_eq]
    cases same <;> cases predicate tp <;> simp [addAll]
  | .vector name kind same cs, tp, out => by
    simp only [visit, comps, addToWriter_eq]
    cases same <;> cases predicate tp <;> simp [addAll]
  | .inner same cs, tp, out => by
    simp only [visit, comps]
    exact visitChildren_eq gen predicate cs tp 0 out

theorem visitChildren_eq (gen : Text → Path → Option Text) (predicate : Path → Bool) :
    ∀ (ss : List Space) (tp : Path) (i : Nat) (out : List Entry),
      visitChildren gen predicate ss tp i out = addAll gen (compsChildren predicate ss tp i) out
  | [], tp, i, out => by simp [visitChildren, compsChildren, addAll]
  | s :: ss, tp, i, out => by
    simp only [visitChildren, compsChildren]
    rw [addAll_append, visit_eq gen predicate s (tp ++ [i]) out]
    cases h : addAll gen (comps predicate s (tp ++ [i])) out with
    | mk o b =>
      cases b with
      | false => simp
      | true => simp only [if_true]; exact visitChildren_eq gen predicate ss tp (i + 1) o

end

/-- Predicate on paths below a path. -/
def below (predicate : Path → Bool) (tp : Path) : Path → Bool := fun p => predicate (tp ++ p)

theorem pathLt_append (tp p q : Path) : pathLt (tp ++ p) (tp ++ q) ↔ pathLt p q := by
  induction tp with
  | nil => rfl
  | cons a tp ih => simp [pathLt, ih]

theorem nodeAt_leaf {n : Text} {k : Kind} {b : Bool} {p : Path} {s : Space}
    (h : nodeAt (.leaf n k b) p = some s) : p = [] ∧ s = .leaf n k b := by
  cases p with
  | nil => simp [nodeAt] at h; exact ⟨rfl, h.symm⟩
  | cons i p => simp [nodeAt] at h

theorem nodeAt_nil (s : Space) : nodeAt s [] = some s := by
  cases s <;> rfl

/-- Components of an inner node are the components of its children. -/
theorem isComponent_inner {predicate : Path → Bool} {b : Bool} {cs : List Space} {p : Path}
    {name : Text} {kind : Kind} :
    IsComponent predicate (.inner b cs) p name kind ↔
      ∃ i s q, cs[i]? = some s ∧ p = i :: q ∧
        IsComponent (fun r => predicate (i :: r)) s q name kind := by
  constructor
  · rintro ⟨⟨s, h1, h2⟩, h3, h4⟩
    cases p with
    | nil =>
      simp only [nodeAt, Option.some.injEq] at h1
      subst h1
      simp [Space.component] at h2
    | cons i q =>
      simp only [nodeAt] at h1
      cases hi : cs[i]? with
      | none => rw [hi] at h1; simp at h1
      | some c =>
        rw [hi] at h1
        refine ⟨i, c, q, hi, rfl, ⟨s, h1, h2⟩, ?_, h4⟩
        intro q' r s' hq hr hs'
        refine h3 (i :: q') r s' (by rw [hq]; rfl) hr ?_
        simp only [nodeAt, hi]
        exact hs'
  · rintro ⟨i, c, q, hi, rfl, ⟨s, h1, h2⟩, h3, h4⟩
    refine ⟨⟨s, by simp only [nodeAt, hi]; exact h1, h2⟩, ?_, h4⟩
    intro q' r s' hq hr hs'
    cases q' with
    | nil =>
      rw [nodeAt_nil] at hs'
      rw [← Option.some.inj hs']
      exact fun h => h
    | cons j q' =>
      simp only [List.cons_append, List.cons.injEq] at hq
      obtain ⟨rfl, hq⟩ := hq
      refine h3 q' r s' hq hr ?_
      simp only [nodeAt, hi] at hs'
      exact hs'

theorem isComponent_leaf {predicate : Path → Bool} {n : Text} {k : Kind} {b : Bool} {p : Path}
    {name : Text} {kind : Kind} :
    IsComponent predicate (.leaf n k b) p name kind ↔
      p = [] ∧ b = true ∧ predicate [] = true ∧ name = n ∧ kind = k := by
  constructor
  · rintro ⟨⟨s, h1, h2⟩, _, h4⟩
    obtain ⟨rfl, rfl⟩ := nodeAt_leaf h1
    cases b with
    | false => simp [Space.component] at h2
    | true =>
      simp only [Space.component, Option.some.injEq, Prod.mk.injEq] at h2
      exact ⟨rfl, rfl, h4, h2.1.symm, h2.2.symm⟩
  · rintro ⟨rfl, rfl, h, rfl, rfl⟩
    refine ⟨⟨_, nodeAt_nil _, rfl⟩, ?_, h⟩
    intro q r s hq hr
    exact absurd (List.append_eq_nil_iff.1 hq.symm).2 hr

theorem isComponent_vector {predicate : Path → Bool} {n : Text} {k : Kind} {b : Bool}
    {cs : List Space} {p : Path} {name : Text} {kind : Kind} :
    IsComponent predicate (.vector n k b cs) p name kind ↔
      p = [] ∧ b = true ∧ predicate [] = true ∧ name = n ∧ kind = k := by
  constructor
  · rintro ⟨⟨s, h1, h2⟩, h3, h4⟩
    cases p with
    | nil =>
      rw [nodeAt_nil] at h1
      rw [← Option.some.inj h1] at h2
      cases b with
      | false => simp [Space.component] at h2
      | true =>
        simp only [Space.component, Option.some.injEq, Prod.mk.injEq] at h2
        exact ⟨rfl, rfl, h4, h2.1.symm, h2.2.symm⟩
    | cons i q =>
      exact absurd trivial (h3 [] (i :: q) _ rfl (by simp) (nodeAt_nil _))
  · rintro ⟨rfl, rfl, h, rfl, rfl⟩
    refine ⟨⟨_, nodeAt_nil _, rfl⟩, ?_, h⟩
    intro q r s hq hr
    exact absurd (List.append_eq_nil_iff.1 hq.symm).2 hr

/-- The list of components lists the components. -/
def CompsOk (predicate : Path → Bool) (s : Space) (tp : Path) : Prop :=
  (∀ name kind p, (name, kind, p) ∈ comps predicate s tp ↔
    ∃ q, p = tp ++ q ∧ IsComponent (below predicate tp) s q name kind) ∧
  (comps predicate s tp).Pairwise fun a b => pathLt a.2.2 b.2.2

/-- The list of components of children lists the components. -/
def ChildrenOk (predicate : Path → Bool) (ss : List Space) (tp : Path) (i : Nat) : Prop :=
  (∀ name kind p, (name, kind, p) ∈ compsChildren predicate ss tp i ↔
    ∃ j s q, ss[j]? = some s ∧ p = tp ++ (i + j) :: q ∧
      IsComponent (below predicate (tp ++ [i + j])) s q name kind) ∧
  (compsChildren predicate ss tp i).Pairwise fun a b => pathLt a.2.2 b.2.2

mutual

theorem comps_ok (predicate : Path → Bool) : ∀ (s : Space) (tp : Path), CompsOk predicate s tp
  | .leaf n k b, tp => by
    refine ⟨?_, ?_⟩
    · intro name kind p
      simp only [comps, isComponent_leaf, below]
      constructor
      · intro h
        split at h
        · rename_i hb
          simp only [Bool.and_eq_true] at hb
          simp only [List.mem_singleton, Prod.mk.injEq] at h
          exact ⟨[], by simp [h.2.2], rfl, hb.1, by simpa using hb.2, h.1, h.2.1⟩
        · simp at h
      · rintro ⟨q, rfl, rfl, rfl, h, rfl, rfl⟩
        simp only [List.append_nil] at h ⊢
        simp [h]
    · simp only [comps]; split <;> simp
  | .vector n k b cs, tp => by
    refine ⟨?_, ?_⟩
    · intro name kind p
      simp only [comps, isComponent_vector, below]
      constructor
      · intro h
        split at h
        · rename_i hb
          simp only [Bool.and_eq_true] at hb
          simp only [List.mem_singleton, Prod.mk.injEq] at h
          exact ⟨[], by simp [h.2.2], rfl, hb.1, by simpa using hb.2, h.1, h.2.1⟩
        · simp at h
      · rintro ⟨q, rfl, rfl, rfl, h, rfl, rfl⟩
        simp only [List.append_nil] at h ⊢
        simp [h]
    · simp only [comps]; split <;> simp
  | .inner b cs, tp => by
    obtain ⟨h1, h2⟩ := compsChildren_ok predicate cs tp 0
    refine ⟨?_, by simpa only [comps] using h2⟩
    intro name kind p
    simp only [comps]
    rw [h1]
    constructor
    · rintro ⟨j, s, q, hj, hp, hc⟩
      refine ⟨j :: q, by simpa using hp, isComponent_inner.2 ⟨j, s, q, hj, rfl, ?_⟩⟩
      have : below predicate (tp ++ [0 + j]) = fun r => below predicate tp (j :: r) := by
        funext r; simp [below]
      rwa [this] at hc
    · rintro ⟨q', hp, hc⟩
      obtain ⟨j, s, q, hj, rfl, hc⟩ := isComponent_inner.1 hc
      refine ⟨j, s, q, hj, by simpa using hp, ?_⟩
      have : below predicate (tp ++ [0 + j]) = fun r => below predicate tp (j :: r) := by
        funext r; simp [below]
      rwa [this]

theorem compsChildren_ok (predicate : Path → Bool) :
    ∀ (ss : List Space) (tp : Path) (i : Nat), ChildrenOk predicate ss tp i
  | [], tp, i => by
    refine ⟨?_, by simp [compsChildren]⟩
    intro name kind p
    simp [compsChildren]
  | s :: ss, tp, i => by
    obtain ⟨a1, a2⟩ := comps_ok predicate s (tp ++ [i])
    obtain ⟨b1, b2⟩ := compsChildren_ok predicate ss tp (i + 1)
    refine ⟨?_, ?_⟩
    · intro name kind p
      simp only [compsChildren, List.mem_append]
      rw [a1, b1]
      constructor
      · rintro (⟨q, hp, hc⟩ | ⟨j, s', q, hj, hp, hc⟩)
        · exact ⟨0, s, q, rfl, by simpa using hp, hc⟩
        · refine ⟨j + 1, s', q, by simpa using hj, ?_, ?_⟩
          · rw [hp]; congr 2; omega
          · have : i + 1 + j = i + (j + 1) := by omega
            rwa [this] at hc
      · rintro ⟨j, s', q, hj, hp, hc⟩
        cases j with
        | zero =>
          simp only [List.getElem?_cons_zero, Option.some.injEq] at hj
          subst hj
          exact Or.inl ⟨q, by simpa using hp, hc⟩
        | succ j =>
          have : i + 1 + j = i + (j + 1) := by omega
          refine Or.inr ⟨j, s', q, by simpa using hj, ?_, ?_⟩
          · rw [hp, this]
          · rwa [this]
    · simp only [compsChildren]
      rw [List.pairwise_append]
      refine ⟨a2, b2, ?_⟩
      rintro ⟨n, k, p⟩ ha ⟨n', k', p'⟩ hb
      obtain ⟨q, hp, _⟩ := (a1 n k p).1 ha
      obtain ⟨j, s', q', _, hp', _⟩ := (b1 n' k' p').1 hb
      dsimp only
      rw [hp, hp', List.append_assoc, pathLt_append]
      left
      omega

end

theorem addAll_result (gen : Text → Path → Option Text) (cs : List (Text × Kind × Path))
    (hs : cs.Pairwise fun a b => pathLt a.2.2 b.2.2) (out : List Entry) :
    ∃ new : List Entry,
      (addAll gen cs out).1 = out ++ new ∧
      new.Pairwise (fun a b => pathLt a.path b.path) ∧
      (∀ e, e ∈ new ↔ ∃ name, (name, e.kind, e.path) ∈ cs ∧ gen name e.path = some e.name ∧
        ∀ c ∈ cs, gen c.1 c.2.2 = none → pathLt e.path c.2.2) ∧
      ((addAll gen cs out).2 = true ↔ ∀ c ∈ cs, gen c.1 c.2.2 ≠ none) := by
  induction cs generalizing out with
  | nil => exact ⟨[], by simp [addAll], by simp, by simp, by simp [addAll]⟩
  | cons c cs ih =>
    obtain ⟨hc, hs⟩ := List.pairwise_cons.1 hs
    cases hg : gen c.1 c.2.2 with
    | none =>
      refine ⟨[], by simp [addAll, hg], by simp, ?_, by simp [addAll, hg]⟩
      intro e
      simp only [List.not_mem_nil, false_iff]
      rintro ⟨name, hm, hn, hl⟩
      have h1 := hl c (by simp) hg
      rcases List.mem_cons.1 hm with he | he
      · rw [← he] at hg
        rw [hg] at hn
        simp at hn
      · have h2 := hc _ he
        exact pathLt_asymm h1 h2
    | some n =>
      obtain ⟨new, h1, h2, h3, h4⟩ := ih hs (out ++ [⟨c.2.1, n, c.2.2⟩])
      refine ⟨⟨c.2.1, n, c.2.2⟩ :: new, ?_, ?_, ?_, ?_⟩
      · simp only [addAll, hg]; rw [h1]; simp
      · refine List.pairwise_cons.2 ⟨?_, h2⟩
        intro e he
        obtain ⟨name, hm, _⟩ := (h3 e).1 he
        exact hc _ hm
      · intro e
        constructor
        · intro he
          rcases List.mem_cons.1 he with he | he
          · subst he
            refine ⟨c.1, by simp, hg, ?_⟩
            intro c' hc' hn
            rcases List.mem_cons.1 hc' with h | h
            · rw [h, hg] at hn; simp at hn
            · exact hc _ h
          · obtain ⟨name, hm, hn, hl⟩ := (h3 e).1 he
            refine ⟨name, List.mem_cons_of_mem _ hm, hn, ?_⟩
            intro c' hc' hn'
            rcases List.mem_cons.1 hc' with h | h
            · rw [h, hg] at hn'; simp at hn'
            · exact hl c' h hn'
        · rintro ⟨name, hm, hn, hl⟩
          rcases List.mem_cons.1 hm with h | h
          · refine List.mem_cons.2 (Or.inl ?_)
            subst h
            dsimp only at hg
            rw [hg] at hn
            cases e
            simp only [Option.some.injEq] at hn
            simp [hn]
          · refine List.mem_cons.2 (Or.inr ((h3 e).2 ⟨name, h, hn, ?_⟩))
            intro c' hc' hn'
            exact hl c' (List.mem_cons_of_mem _ hc') hn'
      · simp only [addAll, hg]
        rw [h4]
        simp [hg]
where
  pathLt_asymm : ∀ {p q : Path}, pathLt p q → pathLt q p → False
    | [], [], h, _ => h
    | [], _ :: _, _, h => h
    | _ :: _, [], h, _ => h
    | a :: p, b :: q, h, h' => by
      simp only [pathLt] at h h'
      rcases h with h | ⟨h, h1⟩ <;> rcases h' with h' | ⟨h', h2⟩
      · omega
      · omega
      · omega
      · exact pathLt_asymm h1 h2

/-! ## Names -/

/-- The text of a path, by recursion. -/
def pathRec (sep : Text) : Path → Text
  | [] => []
  | [a] => Nat.toDigits 10 a
  | a :: p => Nat.toDigits 10 a ++ sep ++ pathRec sep p

theorem pathRec_snoc (sep : Text) (p : Path) (a : Nat) :
    pathRec sep (p ++ [a])
      = pathRec sep p ++ (if p.length > 0 then sep else []) ++ Nat.toDigits 10 a := by
  induction p with
  | nil => simp [pathRec]
  | cons b p ih =>
    cases p with
    | nil => simp [pathRec]
    | cons c p =>
      rw [List.cons_append]
      have h1 : pathRec sep (b :: (c :: p ++ [a]))
          = Nat.toDigits 10 b ++ sep ++ pathRec sep (c :: p ++ [a]) := rfl
      rw [h1, ih]
      have h2 : pathRec sep (b :: c :: p)
          = Nat.toDigits 10 b ++ sep ++ pathRec sep (c :: p) := rfl
      rw [h2]
      simp

theorem pathText_snoc (sep : Text) (p : Path) (a : Nat) :
    pathText sep (p ++ [a])
      = pathText sep p ++ (if p.length > 0 then sep else []) ++ Nat.toDigits 10 a := by
  unfold pathText
  rw [List.length_append, List.length_singleton, List.range_succ, List.foldl_append,
    List.foldl_cons, List.foldl_nil]
  have h1 : (p ++ [a]).getD p.length 0 = a := by simp [List.getD]
  rw [h1]
  congr 2
  have : ∀ (n : Nat) (s : Text), n ≤ p.length →
      (List.range n).foldl (fun s i => s ++ (if i > 0 then sep else [])
        ++ Nat.toDigits 10 ((p ++ [a]).getD i 0)) s
      = (List.range n).foldl (fun s i => s ++ (if i > 0 then sep else [])
        ++ Nat.toDigits 10 (p.getD i 0)) s := by
    intro n
    induction n with
    | zero => intro s _; rfl
    | succ n ih =>
      intro s hn
      rw [List.range_succ, List.foldl_append, List.foldl_append, ih s (by omega)]
      simp only [List.foldl_cons, List.foldl_nil]
      congr 2
      simp only [List.getD]
      rw [List.getElem?_append_left (by omega)]
  exact this _ _ (Nat.le_refl _)

theorem pathText_eq (sep : Text) (p : Path) : pathText sep p = pathRec sep p := by
  induction p using List.reverseRecOn with
  | nil => rfl
  | append_singleton p a ih => rw [pathText_snoc, pathRec_snoc, ih]

/-- Decimal numbers can be separated from what follows. -/
theorem digits_split {a b : Nat} {s t : Text}
    (hs : ∀ c ∈ s.head?, c.isDigit = false) (ht : ∀ c ∈ t.head?, c.isDigit = false)
    (h : Nat.toDigits 10 a ++ s = Nat.toDigits 10 b ++ t) : a = b ∧ s = t := by
  have hd : ∀ n : Nat, ∀ c ∈ Nat.toDigits 10 n, c.isDigit = true := fun n c hc =>
    Nat.isDigit_of_mem_toDigits (by decide) (by decide) hc
  have key : ∀ (l : Text) (r : Text), (∀ c ∈ l, c.isDigit = true) →
      (∀ c ∈ r.head?, c.isDigit = false) → (l ++ r).takeWhile Char.isDigit = l := by
    intro l r hl hr
    induction l with
    | nil =>
      cases r with
      | nil => rfl
      | cons c r => simp [hr c (by simp)]
    | cons c l ih =>
      rw [List.cons_append, List.takeWhile_cons, if_pos (hl c (by simp)),
        ih fun c hc => hl c (List.mem_cons_of_mem _ hc)]
  have h1 : Nat.toDigits 10 a = Nat.toDigits 10 b := by
    rw [← key _ s (hd a) hs, ← key _ t (hd b) ht, h]
  have h2 : a = b := by
    have := congrArg (fun l => Nat.ofDigitChars 10 l 0) h1
    simpa only [Nat.ofDigitChars_ten_toDigits] using this
  refine ⟨h2, ?_⟩
  rw [h1] at h
  exact List.append_cancel_left h

theorem digits_inj {a b : Nat} (h : Nat.toDigits 10 a = Nat.toDigits 10 b) : a = b := by
  have := congrArg (fun l => Nat.ofDigitChars 10 l 0) h
  simpa only [Nat.ofDigitChars_ten_toDigits] using this

theorem pathRec_inj {sep : Text} (hsep : GoodSeparator sep) {p q : Path}
    (h : pathRec sep p = pathRec sep q) : p = q := by
  have hne : sep ≠ [] := by rintro rfl; exact hsep
  have hhead : ∀ t : Text, ∀ c ∈ (sep ++ t).head?, c.isDigit = false := by
    intro t c hc
    cases sep with
    | nil => exact absurd rfl hne
    | cons d sep =>
      simp only [List.cons_append, List.head?_cons, Option.mem_def, Option.some.injEq] at hc
      rw [← hc]; exact hsep
  have hnil : ∀ c ∈ ([] : Text).head?, c.isDigit = false := by simp
  induction p generalizing q with
  | nil =>
    cases q with
    | nil => rfl
    | cons b q =>
      cases q with
      | nil => exact absurd h.symm Nat.toDigits_ne_nil
      | cons c q =>
        have := congrArg List.length h
        have hp : 0 < (Nat.toDigits 10 b).length := List.length_pos_iff.2 Nat.toDigits_ne_nil
        simp [pathRec] at this
        omega
  | cons a p ih =>
    cases q with
    | nil =>
      cases p with
      | nil => exact absurd h Nat.toDigits_ne_nil
      | cons c p =>
        have := congrArg List.length h
        have hp : 0 < (Nat.toDigits 10 a).length := List.length_pos_iff.2 Nat.toDigits_ne_nil
        simp [pathRec] at this
    | cons b q =>
      cases p with
      | nil =>
        cases q with
        | nil => rw [digits_inj h]
        | cons d q =>
          have h' : Nat.toDigits 10 a ++ [] = Nat.toDigits 10 b ++ (sep ++ pathRec sep (d :: q)) := by
            rw [List.append_nil, ← List.append_assoc]; exact h
          have := (digits_split hnil (hhead _) h').2
          simp [hne] at this
      | cons c p =>
        cases q with
        | nil =>
          have h' : Nat.toDigits 10 a ++ (sep ++ pathRec sep (c :: p)) = Nat.toDigits 10 b ++ [] := by
            rw [List.append_nil, ← List.append_assoc]; exact h
          have := (digits_split (hhead _) hnil h').2
          simp [hne] at this
        | cons d q =>
          have h' : Nat.toDigits 10 a ++ (sep ++ pathRec sep (c :: p))
              = Nat.toDigits 10 b ++ (sep ++ pathRec sep (d :: q)) := by
            rw [← List.append_assoc, ← List.append_assoc]; exact h
          obtain ⟨hab, ht⟩ := digits_split (hhead _) (hhead _) h'
          rw [hab, ih (List.append_cancel_left ht)]

theorem pathText_inj {sep : Text} (hsep : GoodSeparator sep) {p q : Path}
    (h : pathText sep p = pathText sep q) : p = q := by
  rw [pathText_eq, pathText_eq] at h
  exact pathRec_inj hsep h

end Verif.Vtk
