import Verif.Spec.LocalFunctionSpace
import Verif.Proofs.PSum
/-
Helper lemmas for the local function space theorems.
-/
namespace Verif.Lfs
open LeafOrdering (Key)
open PSums

theorem range_sum (f : Nat → Nat) (k : Nat) : ((List.range k).map f).sum = psum f k := rfl

/-- state of the child loop of `computeSizes` after `m` children -/
theorem computeSizes_loop (fast : Bool) (k : Nat) (child : Nat → Space) (off : Nat)
    (ih : ∀ i o, i < k → (computeSizes fast (child i) o).2 = o + (child i).dofs fast) :
    ∀ m, m ≤ k →
    ((List.range m).foldl
      (fun (acc : (Nat → Bound) × Nat) i =>
        let c := computeSizes fast (child i) acc.2
        (fun j => if j = i then c.1 else acc.1 j, c.2))
      (fun _ => .leaf 0 0, off)).2 = off + psum (fun i => (child i).dofs fast) m ∧
    ∀ i, i < m → ((List.range m).foldl
      (fun (acc : (Nat → Bound) × Nat) i =>
        let c := computeSizes fast (child i) acc.2
        (fun j => if j = i then c.1 else acc.1 j, c.2))
      (fun _ => .leaf 0 0, off)).1 i =
        (computeSizes fast (child i) (off + psum (fun i => (child i).dofs fast) i)).1 := by
  intro m
  induction m with
  | zero => intro _; simp [psum]
  | succ m ihm =>
    intro hm
    obtain ⟨h2, h1⟩ := ihm (by omega)
    rw [List.range_succ, List.foldl_append]
    simp only [List.foldl_cons, List.foldl_nil]
    rw [h2]
    constructor
    · rw [ih m _ (by omega), psum_succ, Nat.add_assoc]
    · intro i hi
      by_cases h : i = m
      · subst h; simp
      · simp only [h, if_false]
        exact h1 i (by omega)

theorem computeSizes_end (fast : Bool) (s : Space) : ∀ off,
    (computeSizes fast s off).2 = off + s.dofs fast := by
  induction s with
  | leaf inSet mx bs e ks =>
    intro off
    cases inSet <;> cases fast <;> simp [computeSizes, Space.dofs, leafSize]
  | node k child ih =>
    intro off
    have := (computeSizes_loop fast k child off (fun i o _ => ih i o) k (Nat.le_refl _)).1
    simp only [computeSizes, Space.dofs]
    rw [this, range_sum]

/-- The shape of the bound tree, child by child. -/
theorem computeSizes_node (fast : Bool) (k : Nat) (child : Nat → Space) (off : Nat) :
    ∃ bchild, (computeSizes fast (.node k child) off).1 =
        .node off ((Space.node k child).dofs fast) k bchild ∧
      ∀ i, i < k → bchild i =
        (computeSizes fast (child i) (off + psum (fun i => (child i).dofs fast) i)).1 := by
  have h := computeSizes_loop fast k child off (fun i o _ => computeSizes_end fast (child i) o) k
    (Nat.le_refl _)
  refine ⟨_, ?_, h.2⟩
  simp only [computeSizes]
  rw [h.1]
  simp only [Space.dofs, range_sum]
  congr 1
  omega

theorem computeSizes_offset (fast : Bool) (s : Space) (off : Nat) :
    (computeSizes fast s off).1.offset = off ∧ (computeSizes fast s off).1.n = s.dofs fast := by
  cases s with
  | leaf inSet mx bs e ks =>
    cases inSet <;> cases fast <;> simp [computeSizes, Space.dofs, leafSize, Bound.offset, Bound.n]
  | node k child =>
    obtain ⟨bc, h, _⟩ := computeSizes_node fast k child off
    rw [h]; simp [Bound.offset, Bound.n]

/-- `Bound.at?` along `computeSizes`. -/
theorem at_computeSizes (fast : Bool) (p : List Nat) : ∀ (s : Space) (off : Nat) (t : Space),
    s.at? p = some t →
    ∃ o, (computeSizes fast s off).1.at? p = some (computeSizes fast t o).1 ∧
      off ≤ o ∧ o + t.dofs fast ≤ off + s.dofs fast := by
  induction p with
  | nil =>
    intro s off t h
    have : s = t := by cases s <;> simpa [Space.at?] using h
    subst this
    exact ⟨off, by cases (computeSizes fast s off).1 <;> rfl, Nat.le_refl _, Nat.le_refl _⟩
  | cons i p ih =>
    intro s off t h
    cases s with
    | leaf => simp [Space.at?] at h
    | node k child =>
      simp only [Space.at?] at h
      split at h
      · rename_i hi
        obtain ⟨bc, h1, h2⟩ := computeSizes_node fast k child off
        obtain ⟨o, e, l1, l2⟩ := ih (child i) (off + psum (fun i => (child i).dofs fast) i) t h
        refine ⟨o, ?_, by omega, ?_⟩
        · rw [h1]; simp only [Bound.at?, hi, if_true]; rw [h2 i hi]; exact e
        · simp only [Space.dofs, range_sum]
          have := psum_mono (fun i => (child i).dofs fast) (show i + 1 ≤ k by omega)
          rw [psum_succ] at this
          omega
      · simp at h

/-- A path to a leaf; converse direction: nodes of the bound tree are nodes of the space tree. -/
theorem at_computeSizes_conv (fast : Bool) (p : List Nat) : ∀ (s : Space) (off : Nat) (b : Bound),
    (computeSizes fast s off).1.at? p = some b → ∃ t, s.at? p = some t := by
  induction p with
  | nil => intro s off b _; exact ⟨s, by cases s <;> rfl⟩
  | cons i p ih =>
    intro s off b h
    cases s with
    | leaf inSet mx bs e ks => simp [computeSizes, Bound.at?] at h
    | node k child =>
      obtain ⟨bc, h1, h2⟩ := computeSizes_node fast k child off
      rw [h1] at h
      simp only [Bound.at?] at h
      split at h
      · rename_i hi
        rw [h2 i hi] at h
        obtain ⟨t, ht⟩ := ih _ _ _ h
        exact ⟨t, by simp [Space.at?, hi, ht]⟩
      · simp at h

theorem psum_le_of_lt (f : Nat → Nat) {i j : Nat} (h : i < j) : psum f i + f i ≤ psum f j := by
  have := psum_mono f (show i + 1 ≤ j by omega)
  rw [psum_succ] at this
  omega

/-- Different leaves occupy disjoint ranges. -/
theorem leaves_disjoint (fast : Bool) (s : Space) : ∀ (off : Nat) (p q : List Nat) (o1 n1 o2 n2 : Nat),
    (computeSizes fast s off).1.at? p = some (.leaf o1 n1) →
    (computeSizes fast s off).1.at? q = some (.leaf o2 n2) → p ≠ q →
    o1 + n1 ≤ o2 ∨ o2 + n2 ≤ o1 := by
  induction s with
  | leaf inSet mx bs e ks =>
    intro off p q o1 n1 o2 n2 hp hq hne
    cases p with
    | nil => cases q with
      | nil => simp at hne
      | cons => simp [computeSizes, Bound.at?] at hq
    | cons => simp [computeSizes, Bound.at?] at hp
  | node k child ih =>
    intro off p q o1 n1 o2 n2 hp hq hne
    obtain ⟨bc, h1, h2⟩ := computeSizes_node fast k child off
    rw [h1] at hp hq
    cases p with
    | nil => simp [Bound.at?] at hp
    | cons i p =>
    cases q with
    | nil => simp [Bound.at?] at hq
    | cons j q =>
    simp only [Bound.at?] at hp hq
    split at hp <;> [skip; simp at hp]
    split at hq <;> [skip; simp at hq]
    rename_i hi hj
    rw [h2 i hi] at hp
    rw [h2 j hj] at hq
    have rng : ∀ (i : Nat) (p : List Nat) (o n : Nat),
        (computeSizes fast (child i) (off + psum (fun i => (child i).dofs fast) i)).1.at? p
          = some (.leaf o n) →
        off + psum (fun i => (child i).dofs fast) i ≤ o ∧
        o + n ≤ off + psum (fun i => (child i).dofs fast) i + (child i).dofs fast := by
      intro i p o n h
      obtain ⟨t, ht⟩ := at_computeSizes_conv fast p _ _ _ h
      obtain ⟨o', e, l1, l2⟩ := at_computeSizes fast p _ (off + psum (fun i => (child i).dofs fast) i) t ht
      rw [h] at e
      injection e with e
      have := computeSizes_offset fast t o'
      rw [← e] at this
      simp only [Bound.offset, Bound.n] at this
      omega
    by_cases hij : i = j
    · subst hij
      exact ih i _ p q _ _ _ _ hp hq (by intro h; exact hne (by rw [h]))
    · have a := rng i p _ _ hp
      have b := rng j q _ _ hq
      rcases Nat.lt_or_gt_of_ne hij with h | h
      · have := psum_le_of_lt (fun i => (child i).dofs fast) h
        omega
      · have := psum_le_of_lt (fun i => (child i).dofs fast) h
        omega

/-- Every index below the size belongs to a leaf. -/
theorem leaves_cover (fast : Bool) (s : Space) : ∀ (off i : Nat), off ≤ i → i < off + s.dofs fast →
    ∃ p o n, (computeSizes fast s off).1.at? p = some (.leaf o n) ∧ o ≤ i ∧ i < o + n := by
  induction s with
  | leaf inSet mx bs e ks =>
    intro off i h1 h2
    refine ⟨[], off, (Space.leaf inSet mx bs e ks).dofs fast, ?_, h1, h2⟩
    cases inSet <;> cases fast <;> simp [computeSizes, Space.dofs, leafSize, Bound.at?]
  | node k child ih =>
    intro off i h1 h2
    obtain ⟨bc, e1, e2⟩ := computeSizes_node fast k child off
    simp only [Space.dofs, range_sum] at h2
    obtain ⟨j, hj, l1, l2⟩ : ∃ j, j < k ∧ psum (fun i => (child i).dofs fast) j ≤ i - off ∧
        i - off < psum (fun i => (child i).dofs fast) (j + 1) := by
      have := psum_exists (fun i => (child i).dofs fast) k (i - off) (by omega)
      obtain ⟨j, a, hj, ha, he⟩ := this
      refine ⟨j, hj, by omega, ?_⟩
      rw [psum_succ]; omega
    rw [psum_succ] at l2
    obtain ⟨p, o, n, h, a, b⟩ := ih j (off + psum (fun i => (child i).dofs fast) j) i (by omega)
      (by omega)
    refine ⟨j :: p, o, n, ?_, a, b⟩
    rw [e1]; simp only [Bound.at?, hj, if_true]; rw [e2 j hj]; exact h

/-- Subtrees of well-formed trees are well-formed. -/
theorem wf_at (p : List Nat) : ∀ (s t : Space), WellFormed s → s.at? p = some t → WellFormed t := by
  induction p with
  | nil => intro s t hw hp; cases s <;> simp [Space.at?] at hp <;> subst hp <;> exact hw
  | cons j p ihp =>
    intro s t hw hp
    cases hw with
    | leaf => simp [Space.at?] at hp
    | node k' child' h' =>
      simp only [Space.at?] at hp
      split at hp
      · exact ihp _ _ (h' j (by assumption)) hp
      · simp at hp

theorem pushRange_spec (c : Nat) : ∀ (cnt pos : Nat) (a : List Dof), pos + cnt ≤ a.length →
    ∃ a', pushRange a pos c cnt = some a' ∧ a'.length = a.length ∧
      (∀ i, i < pos ∨ pos + cnt ≤ i → a'[i]? = a[i]?) ∧
      (∀ i, pos ≤ i → i < pos + cnt → a'[i]? = (a[i]?).map (Dof.push c)) := by
  intro cnt
  induction cnt with
  | zero => intro pos a _; exact ⟨a, rfl, rfl, fun _ _ => rfl, fun i h1 h2 => by omega⟩
  | succ cnt ih =>
    intro pos a h
    have hp : pos < a.length := by omega
    simp only [pushRange, List.getElem?_eq_getElem hp]
    obtain ⟨a', e, hl, h1, h2⟩ := ih (pos + 1) (a.set pos (a[pos].push c)) (by simp; omega)
    refine ⟨a', e, by simpa using hl, ?_, ?_⟩
    · intro i hi
      rw [h1 i (by omega), List.getElem?_set_ne (by omega)]
    · intro i hi1 hi2
      by_cases hip : i = pos
      · subst hip
        rw [h1 i (by omega), List.getElem?_set_self hp, List.getElem?_eq_getElem hp]
        rfl
      · rw [h2 i (by omega) (by omega), List.getElem?_set_ne (by omega)]

theorem storeKeys_spec : ∀ (ks : List Key) (pos : Nat) (a : List Dof), pos + ks.length ≤ a.length →
    ∃ a', storeKeys a pos ks = some a' ∧ a'.length = a.length ∧
      (∀ i, i < pos ∨ pos + ks.length ≤ i → a'[i]? = a[i]?) ∧
      (∀ j k, ks[j]? = some k → a'[pos + j]? = some (Dof.store k)) := by
  intro ks
  induction ks with
  | nil => intro pos a _; exact ⟨a, rfl, rfl, fun _ _ => rfl, fun j k h => by simp at h⟩
  | cons k ks ih =>
    intro pos a h
    simp only [List.length_cons] at h
    have hp : pos < a.length := by omega
    simp only [storeKeys, write, hp, if_true, Option.bind_some]
    obtain ⟨a', e, hl, h1, h2⟩ := ih (pos + 1) (a.set pos (Dof.store k)) (by simp; omega)
    refine ⟨a', e, by simpa using hl, ?_, ?_⟩
    · intro i hi
      simp only [List.length_cons] at hi
      rw [h1 i (by omega), List.getElem?_set_ne (by omega)]
    · intro j k' hj
      cases j with
      | zero =>
        simp only [List.getElem?_cons_zero, Option.some.injEq] at hj
        subst hj
        rw [Nat.add_zero, h1 pos (by omega), List.getElem?_set_self hp]
      | succ j =>
        have := h2 j k' (by simpa using hj)
        rw [← this]; congr 1; omega

/-- What the container holds for a leaf after the visitor has left the subtree `s`. -/
def Filled (s : Space) (b : Bound) (a : List Dof) : Prop :=
  ∀ p mx bs e ks, s.at? p = some (.leaf true mx bs e ks) →
    ∃ o n, b.at? p = some (.leaf o n) ∧
      ∀ (j : Nat) (k : Key), ks[j]? = some k → a[o + j]? = some ⟨k.gt, k.entity, p ++ [k.index]⟩

theorem fill_spec (s : Space) (hw : WellFormed s) : ∀ (off : Nat) (a : List Dof),
    off + s.dofs false ≤ a.length →
    ∃ a', fillIndices false s (computeSizes false s off).1 a = some a' ∧ a'.length = a.length ∧
      (∀ i, i < off ∨ off + s.dofs false ≤ i → a'[i]? = a[i]?) ∧
      Filled s (computeSizes false s off).1 a' := by
  induction hw with
  | leaf inSet mx bs e ks hlen =>
    intro off a h
    cases inSet with
    | false =>
      refine ⟨a, by simp [fillIndices, leafDofIndices], rfl, fun _ _ => rfl, ?_⟩
      intro p mx' bs' e' ks' hp
      cases p <;> simp [Space.at?] at hp
    | true =>
      have hd : (Space.leaf true mx bs e ks).dofs false = ks.length := by
        simp [Space.dofs, leafSize, hlen]
      rw [hd] at h ⊢
      obtain ⟨a', e1, hl, h1, h2⟩ := storeKeys_spec ks off a h
      refine ⟨a', ?_, hl, h1, ?_⟩
      · simpa [fillIndices, leafDofIndices, (computeSizes_offset false _ off).1] using e1
      · intro p mx' bs' e' ks' hp
        cases p with
        | cons => simp [Space.at?] at hp
        | nil =>
          simp only [Space.at?, Option.some.injEq, Space.leaf.injEq, true_and] at hp
          obtain ⟨-, -, -, rfl⟩ := hp
          exact ⟨off, bs, by simp [computeSizes, Bound.at?], fun j k hj => h2 j k hj⟩
  | node k child hc ih =>
    intro off a hlen
    obtain ⟨bc, e1, e2⟩ := computeSizes_node false k child off
    rw [e1]
    have hlen' : off + psum (fun i => (child i).dofs false) k ≤ a.length := hlen
    have key : ∀ m, m ≤ k → ∃ a', (List.range m).foldl
        (fun (acc : Option (List Dof)) i =>
          acc.bind fun a => (fillIndices false (child i) (bc i) a).bind fun a =>
            if (false : Bool) = true then some a else pushRange a (bc i).offset i (bc i).n)
        (some a) = some a' ∧ a'.length = a.length ∧
        (∀ i, i < off ∨ off + psum (fun i => (child i).dofs false) m ≤ i → a'[i]? = a[i]?) ∧
        ∀ i, i < m → ∀ p mx bs e ks, (child i).at? p = some (.leaf true mx bs e ks) →
          ∃ o n, (bc i).at? p = some (.leaf o n) ∧
            ∀ (j : Nat) (k : Key), ks[j]? = some k →
              a'[o + j]? = some ⟨k.gt, k.entity, i :: (p ++ [k.index])⟩ := by
      intro m
      induction m with
      | zero => intro _; exact ⟨a, rfl, rfl, fun _ _ => rfl, fun i hi => by omega⟩
      | succ m ihm =>
        intro hm
        obtain ⟨a1, f1, l1, o1, g1⟩ := ihm (by omega)
        have hms := psum_mono (fun i => (child i).dofs false) hm
        rw [psum_succ] at hms
        obtain ⟨a2, f2, l2, o2, g2⟩ := ih m (by omega)
          (off + psum (fun i => (child i).dofs false) m) a1 (by omega)
        rw [← e2 m (by omega)] at f2 g2
        have hoff := computeSizes_offset false (child m) (off + psum (fun i => (child i).dofs false) m)
        rw [← e2 m (by omega)] at hoff
        obtain ⟨a3, f3, l3, o3, g3⟩ := pushRange_spec m (bc m).n (bc m).offset a2
          (by rw [hoff.1, hoff.2]; omega)
        rw [hoff.1, hoff.2] at o3 g3
        refine ⟨a3, ?_, by omega, ?_, ?_⟩
        · rw [List.range_succ, List.foldl_append, f1]
          simp only [List.foldl_cons, List.foldl_nil, Option.bind_some, f2]
          simpa using f3
        · intro i hi
          rw [psum_succ] at hi
          rw [o3 i (by omega), o2 i (by omega), o1 i (by omega)]
        · intro i hi p mx bs e ks hp
          -- range of the leaf inside child `i`
          have rng : ∀ (o n : Nat), (bc i).at? p = some (.leaf o n) → n = (Space.leaf true mx bs e ks).dofs false ∧
              off + psum (fun i => (child i).dofs false) i ≤ o ∧
              o + n ≤ off + psum (fun i => (child i).dofs false) i + (child i).dofs false := by
            intro o n hb
            rw [e2 i (by omega)] at hb
            obtain ⟨o', eq, q1, q2⟩ := at_computeSizes false p _
              (off + psum (fun i => (child i).dofs false) i) _ hp
            rw [hb] at eq
            injection eq with eq
            have := computeSizes_offset false (Space.leaf true mx bs e ks) o'
            rw [← eq] at this
            simp only [Bound.offset, Bound.n] at this
            omega
          have hks : (Space.leaf true mx bs e ks).dofs false = ks.length := by
            have hwf : WellFormed (Space.leaf true mx bs e ks) := wf_at p _ _ (hc i (by omega)) hp
            cases hwf with
            | leaf _ _ _ _ _ h => simp [Space.dofs, leafSize, h]
          by_cases him : i = m
          · subst him
            obtain ⟨o, n, hb, hk⟩ := g2 p mx bs e ks hp
            obtain ⟨r1, r2, r3⟩ := rng o n hb
            refine ⟨o, n, hb, fun j k' hj => ?_⟩
            have hjl : j < ks.length := (List.getElem?_eq_some_iff.mp hj).1
            rw [g3 (o + j) (by omega) (by omega), hk j k' hj]
            rfl
          · obtain ⟨o, n, hb, hk⟩ := g1 i (by omega) p mx bs e ks hp
            obtain ⟨r1, r2, r3⟩ := rng o n hb
            refine ⟨o, n, hb, fun j k' hj => ?_⟩
            have hjl : j < ks.length := (List.getElem?_eq_some_iff.mp hj).1
            have := psum_le_of_lt (fun i => (child i).dofs false) (show i < m by omega)
            rw [o3 (o + j) (by omega), o2 (o + j) (by omega), hk j k' hj]
    obtain ⟨a', f, l, o, g⟩ := key k (Nat.le_refl _)
    refine ⟨a', f, l, o, ?_⟩
    intro p mx bs e ks hp
    cases p with
    | nil => simp [Space.at?] at hp
    | cons i p =>
      simp only [Space.at?] at hp
      split at hp
      · rename_i hi
        obtain ⟨o, n, hb, hk⟩ := g i hi p mx bs e ks hp
        exact ⟨o, n, by simp [Bound.at?, hi, hb], hk⟩
      · simp at hp

/-- Children of an inner node of the bound tree. -/
theorem node_children (fast : Bool) (s : Space) (off : Nat) (p : List Nat) (o n k : Nat) (bc : Nat → Bound)
    (h : (computeSizes fast s off).1.at? p = some (.node o n k bc)) :
    ∃ child : Nat → Space, s.at? p = some (.node k child) ∧ n = (Space.node k child).dofs fast ∧
      ∀ i, i < k → bc i =
        (computeSizes fast (child i) (o + psum (fun i => (child i).dofs fast) i)).1 := by
  obtain ⟨t, ht⟩ := at_computeSizes_conv fast p s off _ h
  obtain ⟨o', e, -, -⟩ := at_computeSizes fast p s off t ht
  rw [h] at e
  injection e with e
  cases t with
  | leaf inSet mx bs el ks => simp [computeSizes] at e
  | node k' child =>
    obtain ⟨bc', e1, e2⟩ := computeSizes_node fast k' child o'
    rw [e1] at e
    simp only [Bound.node.injEq] at e
    obtain ⟨rfl, rfl, rfl, rfl⟩ := e
    exact ⟨child, ht, rfl, e2⟩

end Verif.Lfs
