import Verif.Spec.IndexRoutes
import Verif.Proofs.GridViewOrdering
import Mathlib.Data.List.Basic
/-! Proofs about the routes from DOF indices to container indices. -/
namespace Verif.IndexRoutes
open LeafOrdering (Leaf)
open GridViewOrdering (Local GVO addBack)

/-! ### what the orderings know -/

/-- The arrays of local orderings exist and a node knows the geometry types with DOFs of its leaves. -/
def LocalSane : Local → Prop
  | .leaf a => ∀ t e s, (Local.leaf a).size t e = some s → ∃ a' u, a = some a' ∧ a'.gtUsed[t]? = some u ∧ (0 < s → u = true)
  | .node b a n child => a.isSome ∧ (∀ t e p, LocalIsDof (.node b a n child) t e p → (a.bind fun a => a.gtUsed[t]?) = some true) ∧
      ∀ c, c < n → LocalSane (child c)

/-- All leaves know the geometry types with DOFs. -/
def Tree.Sane : Tree → Prop
  | .direct l => ∀ t e s, l.entitySize t e = some s → ∃ u, l.gtUsed[t]? = some u ∧ (0 < s → u = true) ∧
      (u = true → l.fixed = true → (l.gtDofOffsets[t]?).isSome)
  | .loc l => LocalSane l
  | .gridView g => LocalSane g.loc
  | .lex _ _ n child => ∀ c, c < n → (child c).Sane
  | .inter _ _ n child => ∀ c, c < n → (child c).Sane
  | .chunked _ child => child.Sane
  | .permuted _ child => child.Sane

/-! ### loops -/

theorem mapLoop_ok (step : DI → CI → Option CI) (tail : Nat) :
    ∀ (Z : List (DI × CI × CI)) (D1 D2 : List DI) (A B : List CI),
      (∀ z ∈ Z, step (z.1.view tail) z.2.1 = some z.2.2) →
      mapLoop step (D1 ++ Z.map (·.1) ++ D2) Z.length D1.length tail A.length (A ++ Z.map (·.2.1) ++ B) =
        some (A ++ Z.map (·.2.2) ++ B)
  | [], D1, D2, A, B, _ => by simp [mapLoop]
  | z :: Z, D1, D2, A, B, h => by
    simp only [List.length_cons, mapLoop]
    have h1 : (D1 ++ List.map (·.1) (z :: Z) ++ D2)[D1.length]? = some z.1 := by simp
    have h2 : (A ++ List.map (·.2.1) (z :: Z) ++ B)[A.length]? = some z.2.1 := by simp
    rw [h1, h2]
    simp only [Option.bind_some]
    rw [h z (by simp)]
    simp only [Option.bind_some]
    have h3 : (A ++ List.map (·.2.1) (z :: Z) ++ B).set A.length z.2.2 = (A ++ [z.2.2]) ++ Z.map (·.2.1) ++ B := by
      simp
    rw [h3]
    have ih := mapLoop_ok step tail Z (D1 ++ [z.1]) D2 (A ++ [z.2.2]) B (fun y hy => h y (by simp [hy]))
    simp only [List.length_append, List.length_singleton] at ih
    have h4 : D1 ++ List.map (·.1) (z :: Z) ++ D2 = D1 ++ [z.1] ++ Z.map (·.1) ++ D2 := by simp
    rw [h4, ih]
    simp

theorem modifyLoop_ok (f : Nat → List Nat → Option (List Nat)) :
    ∀ (Z : List (List Nat × List Nat)) (i : Nat) (A B : List (List Nat)),
      (∀ j x y, Z[j]? = some (x, y) → f (i + j) x = some y) →
      modifyLoop f Z.length i A.length (A ++ Z.map (·.1) ++ B) = some (A ++ Z.map (·.2) ++ B)
  | [], i, A, B, _ => by simp [modifyLoop]
  | z :: Z, i, A, B, h => by
    simp only [List.length_cons, modifyLoop]
    have h2 : (A ++ List.map (·.1) (z :: Z) ++ B)[A.length]? = some z.1 := by simp
    rw [h2]
    simp only [Option.bind_some]
    have h0 : f i z.1 = some z.2 := h 0 z.1 z.2 (by simp)
    rw [h0]
    simp only [Option.bind_some]
    have h3 : (A ++ List.map (·.1) (z :: Z) ++ B).set A.length z.2 = (A ++ [z.2]) ++ Z.map (·.1) ++ B := by simp
    rw [h3]
    have ih := modifyLoop_ok f Z (i + 1) (A ++ [z.2]) B (by
      intro j x y hj
      have := h (j + 1) x y (by simpa using hj)
      rw [show i + 1 + j = i + (j + 1) by omega]
      exact this)
    simp only [List.length_append, List.length_singleton] at ih
    rw [ih]
    simp

/-! ### DOF lists -/

theorem dofs_append (pre : List Nat) (L1 L2 : List (List Nat × List LeafDof)) :
    dofs pre (L1 ++ L2) = dofs pre L1 ++ dofs pre L2 := by simp [dofs]

theorem dofs_pre (pre : List Nat) (LL : List (List Nat × List LeafDof)) :
    dofs pre LL = (dofs [] LL).map fun d => { d with path := pre ++ d.path } := by
  simp [dofs, List.map_flatMap, Function.comp_def]

theorem dofs_cons (pre : List Nat) (c : Nat) (LL : List (List Nat × List LeafDof)) :
    dofs pre (LL.map fun x => (c :: x.1, x.2)) = dofs (pre ++ [c]) LL := by
  simp [dofs, List.flatMap_map]

theorem groupSizes_append (L1 L2 : List (List Nat × List LeafDof)) :
    groupSizes (L1 ++ L2) = groupSizes L1 ++ groupSizes L2 := by simp [groupSizes]

theorem dofs_length_pre (pre : List Nat) (LL : List (List Nat × List LeafDof)) :
    (dofs pre LL).length = (dofs [] LL).length := by rw [dofs_pre]; simp

theorem view_pre (pre : List Nat) (d : DI) : ({ d with path := pre ++ d.path } : DI).view pre.length = d := by
  simp [DI.view]

/-- One pass over the range of DOFs of a subtree. -/
theorem postRange (step : DI → CI → Option CI) (pre : List Nat) (LL : List (List Nat × List LeafDof)) (D1 D2 : List DI)
    (A B : List CI) (r0 r1 : DI → CI) (e2 : Nat) (h : ∀ d ∈ dofs [] LL, step d (r0 d) = some (r1 d)) :
    mapRange step (D1 ++ dofs pre LL ++ D2) ⟨D1.length, pre.length⟩ ⟨D1.length + (dofs pre LL).length, e2⟩ A.length
      (A ++ (dofs [] LL).map r0 ++ B) = some (A ++ (dofs [] LL).map r1 ++ B) := by
  unfold mapRange
  rw [if_pos (by simp)]
  simp only [Nat.add_sub_cancel_left]
  let Z : List (DI × CI × CI) := (dofs [] LL).map fun d => ({ d with path := pre ++ d.path }, r0 d, r1 d)
  have hz := mapLoop_ok step pre.length Z D1 D2 A B (by
    intro z hz
    obtain ⟨d, hd, rfl⟩ := List.mem_map.1 hz
    simp only
    rw [view_pre]
    exact h d hd)
  have e1 : Z.map (·.1) = dofs pre LL := by rw [dofs_pre]; simp [Z]
  have e3 : Z.map (·.2.1) = (dofs [] LL).map r0 := by simp [Z]
  have e4 : Z.map (·.2.2) = (dofs [] LL).map r1 := by simp [Z]
  have e5 : Z.length = (dofs pre LL).length := by rw [dofs_length_pre]; simp [Z]
  rw [e1, e3, e4, e5] at hz
  exact hz

/-! ### the visitor of local function spaces -/

/-- What a visit of a subtree does: the container indices of its DOFs become the indices of `mi`. `k` is the number of
entries of the tree index cut off in addition to the prefix. -/
def VisOk (vis : List DI → List Nat → VS → Option VS) (k : Nat) (paths : List (List Nat)) (mi : DI → Option CI)
    (isDof : DI → Prop) : Prop :=
  ∀ (pre : List Nat) (LL : List (List Nat × List LeafDof)) (D1 D2 : List DI) (S1 S2 : List Nat) (A B : List CI),
    LL.map (·.1) = paths → (∀ d ∈ dofs [] LL, (mi d).isSome ∧ isDof d) →
    vis (D1 ++ dofs pre LL ++ D2) (S1 ++ groupSizes LL ++ S2)
      ⟨⟨D1.length, pre.length + k⟩, ⟨D1.length, pre.length + k⟩, A.length, S1.length,
        A ++ (dofs [] LL).map (fun _ => []) ++ B⟩ =
    some ⟨⟨D1.length + (dofs pre LL).length, pre.length + k⟩, ⟨D1.length + (dofs pre LL).length, pre.length + k⟩,
      A.length + (dofs pre LL).length, S1.length + LL.length, A ++ (dofs [] LL).map (fun d => (mi d).getD []) ++ B⟩

/-- The DOF index inside of the child. -/
def DI.pop (d : DI) : DI := { d with path := d.path.tail }

/-- The children of a node. -/
def kids (mi : Nat → DI → Option CI) (d : DI) : Option CI := d.path.head?.bind fun c => mi c d.pop

def kidDof (n : Nat) (isDof : Nat → DI → Prop) (d : DI) : Prop := ∃ c q, d.path = c :: q ∧ c < n ∧ isDof c { d with path := q }

theorem map_fst_cons {c : Nat} {paths : List (List Nat)} :
    ∀ {LL : List (List Nat × List LeafDof)}, LL.map (·.1) = paths.map (c :: ·) →
      ∃ L' : List (List Nat × List LeafDof), LL = L'.map (fun x => (c :: x.1, x.2)) ∧ L'.map (·.1) = paths := by
  induction paths with
  | nil => intro LL h; exact ⟨[], by simpa using h, rfl⟩
  | cons p ps ih =>
    intro LL h
    cases LL with
    | nil => simp at h
    | cons x xs =>
      simp only [List.map_cons, List.cons.injEq] at h
      obtain ⟨L', h1, h2⟩ := ih h.2
      refine ⟨(p, x.2) :: L', ?_, by simp [h2]⟩
      simp only [List.map_cons, List.cons.injEq]
      exact ⟨by rw [← h.1], h1⟩

theorem kids_vis (n : Nat) (vis : Nat → List DI → List Nat → VS → Option VS) (paths : Nat → List (List Nat))
    (mi : Nat → DI → Option CI) (isDof : Nat → DI → Prop)
    (h : ∀ c, c < n → VisOk (vis c) 0 (paths c) (mi c) (isDof c)) :
    VisOk (fun D S s => (List.range n).foldlM (fun s c => vis c D S s) s) 1
      ((List.range n).flatMap fun c => (paths c).map (c :: ·)) (kids mi) (kidDof n isDof) := by
  induction n with
  | zero =>
    intro pre LL D1 D2 S1 S2 A B hp _
    have : LL = [] := by simpa using hp
    subst this
    simp [dofs, groupSizes]
  | succ n ih =>
    intro pre LL D1 D2 S1 S2 A B hp hd
    rw [List.range_succ, List.flatMap_append] at hp
    obtain ⟨L1, L2, rfl, hp1, hp2⟩ := List.map_eq_append_iff.1 hp
    simp only [List.flatMap_cons, List.flatMap_nil, List.append_nil] at hp2
    obtain ⟨L', rfl, hp3⟩ := map_fst_cons hp2
    have hd1 : ∀ d ∈ dofs [] L1, (kids mi d).isSome ∧ kidDof n isDof d := by
      intro d hdm
      obtain ⟨a, c, q, b1, b2, b3⟩ := hd d (by rw [dofs_append]; exact List.mem_append_left _ hdm)
      refine ⟨a, c, q, b1, ?_, b3⟩
      -- the path of `d` starts with a number below `n`
      unfold dofs at hdm
      obtain ⟨x, hx, hdm⟩ := List.mem_flatMap.1 hdm
      obtain ⟨y, _, rfl⟩ := List.mem_map.1 hdm
      have : x.1 ∈ (List.range n).flatMap fun c => (paths c).map (c :: ·) := by
        rw [← hp1]; exact List.mem_map_of_mem hx
      obtain ⟨c', hc', hx'⟩ := List.mem_flatMap.1 this
      obtain ⟨z, _, hz⟩ := List.mem_map.1 hx'
      simp only [List.nil_append, ← hz, List.cons_append, List.cons.injEq] at b1
      rw [← b1.1]
      exact List.mem_range.1 hc'
    have ih' := ih (fun c hc => h c (by omega)) pre L1 D1 (dofs pre (L'.map fun x => (n :: x.1, x.2)) ++ D2) S1
      (groupSizes (L'.map fun x => (n :: x.1, x.2)) ++ S2) A
      ((dofs [] (L'.map fun x => (n :: x.1, x.2))).map (fun _ => []) ++ B) hp1 hd1
    have hd2 : ∀ d ∈ dofs [] L', (mi n d).isSome ∧ isDof n d := by
      intro d hdm
      have hm : { d with path := n :: d.path } ∈ dofs [] (L'.map fun x => (n :: x.1, x.2)) := by
        rw [dofs_cons, dofs_pre]
        exact List.mem_map.2 ⟨d, hdm, rfl⟩
      obtain ⟨a, c, q, b1, b2, b3⟩ := hd _ (by rw [dofs_append]; exact List.mem_append_right _ hm)
      simp only [List.cons.injEq] at b1
      obtain ⟨rfl, rfl⟩ := b1
      exact ⟨by simpa [kids, DI.pop] using a, b3⟩
    have hn := h n (by omega) (pre ++ [n]) L' (D1 ++ dofs pre L1) D2 (S1 ++ groupSizes L1) S2
      (A ++ (dofs [] L1).map fun d => (kids mi d).getD []) B hp3 hd2
    simp only [List.range_succ, List.foldlM_append, List.foldlM_cons, List.foldlM_nil]
    have e1 : D1 ++ dofs pre (L1 ++ L'.map fun x => (n :: x.1, x.2)) ++ D2 =
        D1 ++ dofs pre L1 ++ (dofs pre (L'.map fun x => (n :: x.1, x.2)) ++ D2) := by
      rw [dofs_append]; simp only [List.append_assoc]
    have e2 : S1 ++ groupSizes (L1 ++ L'.map fun x => (n :: x.1, x.2)) ++ S2 =
        S1 ++ groupSizes L1 ++ (groupSizes (L'.map fun x => (n :: x.1, x.2)) ++ S2) := by
      rw [groupSizes_append]; simp only [List.append_assoc]
    have e3 : A ++ (dofs [] (L1 ++ L'.map fun x => (n :: x.1, x.2))).map (fun _ => ([] : CI)) ++ B =
        A ++ (dofs [] L1).map (fun _ => []) ++ ((dofs [] (L'.map fun x => (n :: x.1, x.2))).map (fun _ => []) ++ B) := by
      rw [dofs_append, List.map_append]; simp only [List.append_assoc]
    dsimp only at ih'
    rw [e1, e2, e3, ih']
    have g1 : groupSizes (L'.map fun x => (n :: x.1, x.2)) = groupSizes L' := by simp [groupSizes]
    have g2 : (dofs [] (L'.map fun x => (n :: x.1, x.2))).map (fun _ => ([] : CI)) = (dofs [] L').map fun _ => [] := by
      rw [dofs_cons, dofs_pre]; simp [Function.comp_def]
    have g3 : (dofs [] (L'.map fun x => (n :: x.1, x.2))).map (fun d => (kids mi d).getD []) =
        (dofs [] L').map fun d => (mi n d).getD [] := by
      rw [dofs_cons, dofs_pre]; simp [kids, DI.pop, Function.comp_def]
    have g4 : groupSizes L1 = L1.map fun x => x.2.length := rfl
    rw [g2, dofs_cons pre n L', g1]
    have l1 : (dofs [] L1).length = (dofs pre L1).length := (dofs_length_pre pre L1).symm
    simp only [List.length_append, List.length_map, List.length_singleton, Nat.add_zero, l1, g4] at hn
    simp only [List.append_assoc, g4] at hn ⊢
    simp only [Option.bind_eq_bind, Option.bind_some, List.length_map]
    rw [hn]
    rw [dofs_append, dofs_append, dofs_cons pre n L', List.map_append, g3]
    simp only [Option.bind_some, List.length_append, List.length_map, List.map_append, g3, Nat.add_assoc, List.append_assoc]
    rfl

/-- The same for one prefix. -/
def VisAt (pre : List Nat) (vis : List DI → List Nat → VS → Option VS) (k : Nat) (paths : List (List Nat)) (mi : DI → Option CI)
    (isDof : DI → Prop) : Prop :=
  ∀ (LL : List (List Nat × List LeafDof)) (D1 D2 : List DI) (S1 S2 : List Nat) (A B : List CI),
    LL.map (·.1) = paths → (∀ d ∈ dofs [] LL, (mi d).isSome ∧ isDof d) →
    vis (D1 ++ dofs pre LL ++ D2) (S1 ++ groupSizes LL ++ S2)
      ⟨⟨D1.length, pre.length + k⟩, ⟨D1.length, pre.length + k⟩, A.length, S1.length,
        A ++ (dofs [] LL).map (fun _ => []) ++ B⟩ =
    some ⟨⟨D1.length + (dofs pre LL).length, pre.length + k⟩, ⟨D1.length + (dofs pre LL).length, pre.length + k⟩,
      A.length + (dofs pre LL).length, S1.length + LL.length, A ++ (dofs [] LL).map (fun d => (mi d).getD []) ++ B⟩

theorem VisOk.toAt {vis : List DI → List Nat → VS → Option VS} {k : Nat} {paths : List (List Nat)} {mi : DI → Option CI}
    {isDof : DI → Prop} (h : VisOk vis k paths mi isDof) (pre : List Nat) : VisAt pre vis k paths mi isDof :=
  fun LL => h pre LL

/-- What `map_lfs_indices` does to the range of a subtree. -/
def MapAt (pre : List Nat) (map : List DI → It → It → Nat → List CI → Option (List CI)) (mi0 mi : DI → Option CI)
    (isDof : DI → Prop) : Prop :=
  ∀ (LL : List (List Nat × List LeafDof)) (D1 D2 : List DI) (A B : List CI),
    (∀ d ∈ dofs [] LL, (mi d).isSome ∧ isDof d) →
    (∀ d ∈ dofs [] LL, (mi0 d).isSome) ∧
    map (D1 ++ dofs pre LL ++ D2) ⟨D1.length, pre.length⟩ ⟨D1.length + (dofs pre LL).length, pre.length⟩ A.length
      (A ++ (dofs [] LL).map (fun d => (mi0 d).getD []) ++ B) = some (A ++ (dofs [] LL).map (fun d => (mi d).getD []) ++ B)

theorem mapAt_step (pre : List Nat) (step : DI → CI → Option CI) (mi0 mi : DI → Option CI) (isDof : DI → Prop)
    (h : ∀ d y, mi d = some y → isDof d → ∃ x, mi0 d = some x ∧ step d x = some y) :
    MapAt pre (fun D => mapRange step D) mi0 mi isDof := by
  intro LL D1 D2 A B hd
  refine ⟨?_, ?_⟩
  · intro d hm
    obtain ⟨y, hy⟩ := Option.isSome_iff_exists.1 (hd d hm).1
    obtain ⟨x, hx, _⟩ := h d y hy (hd d hm).2
    simp [hx]
  · apply postRange
    intro d hm
    obtain ⟨y, hy⟩ := Option.isSome_iff_exists.1 (hd d hm).1
    obtain ⟨x, hx, hs⟩ := h d y hy (hd d hm).2
    simp [hx, hy, hs]

/-- A node that takes an entry of the tree index. -/
theorem node_vis (pre : List Nat) (cv : List DI → List Nat → VS → Option VS) (paths : List (List Nat)) (mi0 mi : DI → Option CI)
    (isDof0 isDof : DI → Prop) (map : List DI → It → It → Nat → List CI → Option (List CI)) (hc : VisAt pre cv 1 paths mi0 isDof0)
    (hi : ∀ d, isDof d → isDof0 d) (hm : MapAt pre map mi0 mi isDof) :
    VisAt pre (fun D S s => (cv D S (visitPre true s)).bind (visitPost true (map D) s.dofPos s.contPos)) 0 paths mi isDof := by
  intro LL D1 D2 S1 S2 A B hp hd
  obtain ⟨h1, h2⟩ := hm LL D1 D2 A B hd
  have h3 := hc LL D1 D2 S1 S2 A B hp (fun d hdm => ⟨h1 d hdm, hi d (hd d hdm).2⟩)
  simp only [visitPre, if_true, Nat.add_zero]
  rw [h3]
  simp only [Option.bind_some, visitPost, if_true, Nat.add_sub_cancel]
  rw [h2]
  rfl

/-- A node that does not. -/
theorem deco_vis (pre : List Nat) (cv : List DI → List Nat → VS → Option VS) (paths : List (List Nat)) (mi0 mi : DI → Option CI)
    (isDof0 isDof : DI → Prop) (map : List DI → It → It → Nat → List CI → Option (List CI)) (hc : VisAt pre cv 0 paths mi0 isDof0)
    (hi : ∀ d, isDof d → isDof0 d) (hm : MapAt pre map mi0 mi isDof) :
    VisAt pre (fun D S s => (cv D S (visitPre false s)).bind (visitPost false (map D) s.dofPos s.contPos)) 0 paths mi isDof := by
  intro LL D1 D2 S1 S2 A B hp hd
  obtain ⟨h1, h2⟩ := hm LL D1 D2 A B hd
  have h3 := hc LL D1 D2 S1 S2 A B hp (fun d hdm => ⟨h1 d hdm, hi d (hd d hdm).2⟩)
  simp only [visitPre, Bool.false_eq_true, if_false]
  rw [h3]
  simp only [Nat.add_zero, Option.bind_some, visitPost, Bool.false_eq_true, if_false]
  rw [h2]
  rfl

/-- A leaf. -/
theorem leaf_vis (pre : List Nat) (mi : DI → Option CI) (isDof : DI → Prop)
    (map : List DI → It → It → Nat → List CI → Option (List CI)) (hm : MapAt pre map (fun _ => some []) mi isDof) :
    VisAt pre (fun D S s => visitLeaf (map D) S s) 0 [[]] mi isDof := by
  intro LL D1 D2 S1 S2 A B hp hd
  obtain ⟨h1, h2⟩ := hm LL D1 D2 A B hd
  have hl : LL.length = 1 := by simpa using congrArg List.length hp
  obtain ⟨x, rfl⟩ := List.length_eq_one_iff.1 hl
  have hs : (S1 ++ groupSizes [x] ++ S2)[S1.length]? = some x.2.length := by simp [groupSizes]
  have hlen : (dofs pre [x]).length = x.2.length := by simp [dofs]
  simp only [visitLeaf, hs, Option.bind_some, Nat.add_zero]
  simp only [hlen, Option.getD_some] at h2
  rw [h2]
  simp [hlen]

theorem mapLocal_leaf {a : Option GridViewOrdering.Arrays} {t e : Nat} {p : List Nat} {y : CI}
    (h : (Local.leaf a).mapLocal t e p = some y) : ∃ i, p = [i] ∧ y = [i] := by
  match p with
  | [] => simp [Local.mapLocal] at h
  | [i] => exact ⟨i, rfl, by simpa [Local.mapLocal] using h.symm⟩
  | _ :: _ :: _ => simp [Local.mapLocal] at h

theorem kids_node {mi : Nat → DI → Option CI} {d : DI} {c : Nat} {q : List Nat} (h : d.path = c :: q) :
    kids mi d = mi c { d with path := q } := by simp [kids, h, DI.pop]

theorem localStep_ok {blocked : Bool} {a : Option GridViewOrdering.Arrays} {n : Nat} {child : Nat → Local} (d : DI) (y : CI)
    (h : (Local.node blocked a n child).mapLocal d.t d.e d.path = some y) (ha : a.isSome) :
    ∃ x, kids (fun c d => (child c).mapLocal d.t d.e d.path) d = some x ∧
      localLfsStep (.node blocked a n child) d x = some y := by
  obtain ⟨t, e, p⟩ := d
  cases p with
  | nil => simp [Local.mapLocal] at h
  | cons c q =>
    simp only [Local.mapLocal] at h
    split at h
    · obtain ⟨ci, h1, h2⟩ := Option.bind_eq_some_iff.1 h
      refine ⟨ci, by rw [kids_node rfl]; exact h1, ?_⟩
      simp only [localLfsStep]
      cases hb : blocked with
      | true => simpa [hb] using h2
      | false =>
        rw [hb] at h2
        simp only [Bool.false_eq_true, if_false] at h2 ⊢
        obtain ⟨a', rfl⟩ := Option.isSome_iff_exists.1 ha
        simp only [Option.bind_some] at h2 ⊢
        by_cases h0 : 0 < c
        · simp only [if_pos h0] at h2 ⊢
          exact h2
        · simp only [if_neg h0] at h2 ⊢
          simpa using h2
    · simp at h

theorem local_vis : ∀ (l : Local), LocalSane l → VisOk (fun D S s => localLfsVisit D S l s) 0 (localPaths l)
    (fun d => l.mapLocal d.t d.e d.path) (fun d => LocalIsDof l d.t d.e d.path)
  | .leaf a, _ => by
    intro pre
    refine leaf_vis pre _ _ (fun D => mapRange (localLfsStep (.leaf a)) D) (mapAt_step pre _ _ _ _ ?_)
    intro d y hy _
    obtain ⟨i, h1, rfl⟩ := mapLocal_leaf hy
    exact ⟨[], rfl, by simp [localLfsStep, h1]⟩
  | .node blocked a n child, hu => by
    intro pre
    have hk := kids_vis n (fun c D S s => localLfsVisit D S (child c) s) (fun c => localPaths (child c))
      (fun c d => (child c).mapLocal d.t d.e d.path) (fun c d => LocalIsDof (child c) d.t d.e d.path)
      (fun c hc => local_vis (child c) (hu.2.2 c hc))
    refine node_vis pre _ _ _ _ _ _ (fun D => mapRange (localLfsStep (.node blocked a n child)) D) (hk.toAt pre) ?_
      (mapAt_step pre _ _ _ _ ?_)
    · rintro d ⟨c, q, h1, h2, h3⟩
      exact ⟨c, q, h1, h2, h3⟩
    · intro d y hy _
      exact localStep_ok d y hy hu.1

theorem gvoStep_ok {g : GVO} (d : DI) (y : CI) (h : g.mapIndex d.t d.e d.path = some y) :
    ∃ x, g.loc.mapLocal d.t d.e d.path = some x ∧ gvoLfsStep g d x = some y := by
  unfold GVO.mapIndex at h
  obtain ⟨ci, h1, h2⟩ := Option.bind_eq_some_iff.1 h
  exact ⟨ci, h1, h2⟩

theorem leafStep_ok {l : Leaf} (hs : (Tree.direct l).Sane) (d : DI) (y : CI)
    (h : (Tree.direct l).mapIndex d.t d.e d.path = some y) (hd : (Tree.direct l).IsDof d.t d.e d.path) :
    leafLfsStep l d [] = some y := by
  obtain ⟨i, s, h1, h2, h3⟩ := hd
  obtain ⟨u, hu, hu', _⟩ := hs d.t d.e s h2
  rw [hu' (by omega)] at hu
  rw [h1] at h
  simp only [Tree.mapIndex, Leaf.mapIndex] at h
  simp only [leafLfsStep, h1, hu, Option.bind_some, if_true]
  exact h

theorem lexStep_ok {blocked : Bool} {offsets : List Nat} {n : Nat} {child : Nat → Tree} (d : DI) (y : CI)
    (h : (Tree.lex blocked offsets n child).mapIndex d.t d.e d.path = some y) :
    ∃ x, kids (fun c d => (child c).mapIndex d.t d.e d.path) d = some x ∧ lexLfsStep blocked offsets d x = some y := by
  obtain ⟨t, e, p⟩ := d
  cases p with
  | nil => simp [Tree.mapIndex] at h
  | cons c q =>
    simp only [Tree.mapIndex] at h
    split at h
    · obtain ⟨ci, h1, h2⟩ := Option.bind_eq_some_iff.1 h
      exact ⟨ci, by rw [kids_node rfl]; exact h1, h2⟩
    · simp at h

theorem interStep_ok {blocked : Bool} {merge : List Nat} {n : Nat} {child : Nat → Tree} (d : DI) (y : CI)
    (h : (Tree.inter blocked merge n child).mapIndex d.t d.e d.path = some y) :
    ∃ x, kids (fun c d => (child c).mapIndex d.t d.e d.path) d = some x ∧ interLfsStep blocked merge d x = some y := by
  obtain ⟨t, e, p⟩ := d
  cases p with
  | nil => simp [Tree.mapIndex] at h
  | cons c q =>
    simp only [Tree.mapIndex] at h
    split at h
    · obtain ⟨ci, h1, h2⟩ := Option.bind_eq_some_iff.1 h
      refine ⟨ci, by rw [kids_node rfl]; exact h1, ?_⟩
      cases ci with
      | nil => simp at h2
      | cons b r => exact h2
    · simp at h

theorem chunkStep_ok {bs : Nat} {child : Tree} (d : DI) (y : CI)
    (h : (Tree.chunked bs child).mapIndex d.t d.e d.path = some y) :
    ∃ x, child.mapIndex d.t d.e d.path = some x ∧ chunkLfsStep bs x = some y := by
  simp only [Tree.mapIndex] at h
  obtain ⟨ci, h1, h2⟩ := Option.bind_eq_some_iff.1 h
  exact ⟨ci, h1, by cases ci <;> simpa [chunkLfsStep] using h2⟩

theorem permStep_ok {perm : List Nat} {child : Tree} (d : DI) (y : CI)
    (h : (Tree.permuted perm child).mapIndex d.t d.e d.path = some y) :
    ∃ x, child.mapIndex d.t d.e d.path = some x ∧ permLfsStep perm x = some y := by
  simp only [Tree.mapIndex] at h
  obtain ⟨ci, h1, h2⟩ := Option.bind_eq_some_iff.1 h
  exact ⟨ci, h1, by cases ci <;> simpa [permLfsStep] using h2⟩

/-- The index of the child that the own step of a node starts from. -/
def Tree.inner : Tree → DI → Option CI
  | .direct _, _ => some []
  | .loc (.leaf _), _ => some []
  | .loc (.node _ _ _ child), d => kids (fun c d => (child c).mapLocal d.t d.e d.path) d
  | .gridView g, d => g.loc.mapLocal d.t d.e d.path
  | .lex _ _ _ child, d => kids (fun c d => (child c).mapIndex d.t d.e d.path) d
  | .inter _ _ _ child, d => kids (fun c d => (child c).mapIndex d.t d.e d.path) d
  | .chunked _ child, d => child.mapIndex d.t d.e d.path
  | .permuted _ child, d => child.mapIndex d.t d.e d.path

/-- `mapIndex` of a node is the index of the child followed by the step of `map_lfs_indices`. -/
theorem step_ok (T : Tree) (hs : T.Sane) (d : DI) (y : CI) (h : T.mapIndex d.t d.e d.path = some y)
    (hd : T.IsDof d.t d.e d.path) : ∃ x, T.inner d = some x ∧ T.lfsStep d x = some y := by
  cases T with
  | direct l => exact ⟨[], rfl, leafStep_ok hs d y h hd⟩
  | loc l =>
    cases l with
    | leaf a =>
      obtain ⟨i, h1, rfl⟩ := mapLocal_leaf h
      exact ⟨[], rfl, by simp [Tree.lfsStep, localLfsStep, h1]⟩
    | node b a n child => exact localStep_ok d y h hs.1
  | gridView g => exact gvoStep_ok d y h
  | lex b o n child => exact lexStep_ok d y h
  | inter b mo n child => exact interStep_ok d y h
  | chunked bs child => exact chunkStep_ok d y h
  | permuted perm child => exact permStep_ok d y h

/-- The visitor in any tree of orderings. -/
theorem tree_vis : ∀ (T : Tree), T.Sane → VisOk (fun D S s => T.lfsVisit D S s) 0 T.paths
    (fun d => T.mapIndex d.t d.e d.path) (fun d => T.IsDof d.t d.e d.path)
  | .direct l, hs => by
    intro pre
    refine deco_vis pre (fun D S s => visitLeaf (fun _ _ _ cis => some cis) S s) [[]] (fun _ => some []) _ (fun _ => True) _
      (fun D => mapRange (leafLfsStep l) D) ?_ (fun _ _ => trivial) (mapAt_step pre _ _ _ _ (step_ok (.direct l) hs))
    exact leaf_vis pre _ _ (fun D _ _ _ cis => some cis) (fun LL D1 D2 A B _ => ⟨fun _ _ => rfl, rfl⟩)
  | .loc l, hs => local_vis l hs
  | .gridView g, hs => by
    intro pre
    exact deco_vis pre (fun D S s => localLfsVisit D S g.loc s) _ _ _ _ _ (fun D => mapRange (gvoLfsStep g) D)
      ((local_vis g.loc hs).toAt pre) (fun _ h => h) (mapAt_step pre _ _ _ _ (step_ok (.gridView g) hs))
  | .lex blocked offsets n child, hs => by
    intro pre
    have hk := kids_vis n (fun c D S s => (child c).lfsVisit D S s) (fun c => (child c).paths)
      (fun c d => (child c).mapIndex d.t d.e d.path) (fun c d => (child c).IsDof d.t d.e d.path)
      (fun c hc => tree_vis (child c) (hs c hc))
    exact node_vis pre _ _ _ _ _ _ (fun D => mapRange (lexLfsStep blocked offsets) D) (hk.toAt pre)
      (fun d h => h) (mapAt_step pre _ _ _ _ (step_ok (.lex blocked offsets n child) hs))
  | .inter blocked merge n child, hs => by
    intro pre
    have hk := kids_vis n (fun c D S s => (child c).lfsVisit D S s) (fun c => (child c).paths)
      (fun c d => (child c).mapIndex d.t d.e d.path) (fun c d => (child c).IsDof d.t d.e d.path)
      (fun c hc => tree_vis (child c) (hs c hc))
    exact node_vis pre _ _ _ _ _ _ (fun D => mapRange (interLfsStep blocked merge) D) (hk.toAt pre)
      (fun d h => h) (mapAt_step pre _ _ _ _ (step_ok (.inter blocked merge n child) hs))
  | .chunked bs child, hs => by
    intro pre
    exact deco_vis pre (fun D S s => child.lfsVisit D S s) _ _ _ _ _ (fun D => mapRange (fun _ => chunkLfsStep bs) D)
      ((tree_vis child hs).toAt pre) (fun _ h => h) (mapAt_step pre _ _ _ _ (step_ok (.chunked bs child) hs))
  | .permuted perm child, hs => by
    intro pre
    exact deco_vis pre (fun D S s => child.lfsVisit D S s) _ _ _ _ _ (fun D => mapRange (fun _ => permLfsStep perm) D)
      ((tree_vis child hs).toAt pre) (fun _ h => h) (mapAt_step pre _ _ _ _ (step_ok (.permuted perm child) hs))

/-! ### subspaces -/

/-- The visitor applied to a sub ordering, for one prefix. -/
theorem sub_vis (pre : List Nat) (T : Tree) (hs : T.Sane) (up : List Tree) (mi : DI → Option CI) (isDof : DI → Prop)
    (hi : ∀ d, isDof d → T.IsDof d.t d.e d.path) (hm : MapAt pre (fun D => subMap D T up) T.inner mi isDof) :
    VisAt pre (fun D S s => subVisit D S up T s) 0 T.paths mi isDof := by
  cases T with
  | direct l =>
    refine deco_vis pre (fun D S s => visitLeaf (fun _ _ _ cis => some cis) S s) [[]] (fun _ => some []) _ (fun _ => True) _
      (fun D => subMap D (.direct l) up) ?_ (fun _ _ => trivial) hm
    exact leaf_vis pre _ _ (fun D _ _ _ cis => some cis) (fun LL D1 D2 A B _ => ⟨fun _ _ => rfl, rfl⟩)
  | loc l =>
    cases l with
    | leaf a => exact leaf_vis pre _ _ (fun D => subMap D (.loc (.leaf a)) up) hm
    | node b a n child =>
      have hk := kids_vis n (fun c D S s => localLfsVisit D S (child c) s) (fun c => localPaths (child c))
        (fun c d => (child c).mapLocal d.t d.e d.path) (fun c d => LocalIsDof (child c) d.t d.e d.path)
        (fun c hc => local_vis (child c) (hs.2.2 c hc))
      exact node_vis pre _ _ _ _ _ _ (fun D => subMap D (.loc (.node b a n child)) up) (hk.toAt pre) hi hm
  | gridView g =>
    exact deco_vis pre (fun D S s => localLfsVisit D S g.loc s) _ _ _ _ _ (fun D => subMap D (.gridView g) up)
      ((local_vis g.loc hs).toAt pre) hi hm
  | lex blocked offsets n child =>
    have hk := kids_vis n (fun c D S s => (child c).lfsVisit D S s) (fun c => (child c).paths)
      (fun c d => (child c).mapIndex d.t d.e d.path) (fun c d => (child c).IsDof d.t d.e d.path)
      (fun c hc => tree_vis (child c) (hs c hc))
    exact node_vis pre _ _ _ _ _ _ (fun D => subMap D (.lex blocked offsets n child) up) (hk.toAt pre) hi hm
  | inter blocked merge n child =>
    have hk := kids_vis n (fun c D S s => (child c).lfsVisit D S s) (fun c => (child c).paths)
      (fun c d => (child c).mapIndex d.t d.e d.path) (fun c d => (child c).IsDof d.t d.e d.path)
      (fun c hc => tree_vis (child c) (hs c hc))
    exact node_vis pre _ _ _ _ _ _ (fun D => subMap D (.inter blocked merge n child) up) (hk.toAt pre) hi hm
  | chunked bs child =>
    exact deco_vis pre (fun D S s => child.lfsVisit D S s) _ _ _ _ _ (fun D => subMap D (.chunked bs child) up)
      ((tree_vis child hs).toAt pre) hi hm
  | permuted perm child =>
    exact deco_vis pre (fun D S s => child.lfsVisit D S s) _ _ _ _ _ (fun D => subMap D (.permuted perm child) up)
      ((tree_vis child hs).toAt pre) hi hm

/-- One level up in the tree. -/
theorem inner_child {T C : Tree} {c : Nat} (h : T.childAt c = some C) (hc : T.consume = true) (d : DI) :
    T.inner { d with path := c :: d.path } = C.mapIndex d.t d.e d.path := by
  cases T with
  | direct l => simp [Tree.childAt] at h
  | loc l =>
    cases l with
    | leaf a => simp [Tree.childAt] at h
    | node b a n child =>
      simp only [Tree.childAt] at h
      split at h
      · cases h; rfl
      · simp at h
  | gridView g => simp [Tree.consume] at hc
  | lex b o n child =>
    simp only [Tree.childAt] at h
    split at h
    · cases h; rfl
    · simp at h
  | inter b o n child =>
    simp only [Tree.childAt] at h
    split at h
    · cases h; rfl
    · simp at h
  | chunked b child => simp [Tree.consume] at hc
  | permuted b child => simp [Tree.consume] at hc

theorem inner_deco {T C : Tree} (h : T.childAt 0 = some C) (hc : T.consume = false) (d : DI) :
    T.inner d = C.mapIndex d.t d.e d.path := by
  cases T with
  | direct l => simp [Tree.childAt] at h
  | loc l => simp [Tree.consume] at hc
  | gridView g => simp only [Tree.childAt, if_true, Option.some.injEq] at h; subst h; rfl
  | lex b o n child => simp [Tree.consume] at hc
  | inter b o n child => simp [Tree.consume] at hc
  | chunked b child => simp only [Tree.childAt, if_true, Option.some.injEq] at h; subst h; rfl
  | permuted b child => simp only [Tree.childAt, if_true, Option.some.injEq] at h; subst h; rfl

theorem sane_child {T C : Tree} {c : Nat} (h : T.childAt c = some C) (hs : T.Sane) : C.Sane := by
  cases T with
  | direct l => simp [Tree.childAt] at h
  | loc l =>
    cases l with
    | leaf a => simp [Tree.childAt] at h
    | node b a n child =>
      simp only [Tree.childAt] at h
      split at h
      · cases h; exact hs.2.2 c ‹_›
      · simp at h
  | gridView g =>
    simp only [Tree.childAt] at h
    split at h
    · cases h; exact hs
    · simp at h
  | lex b o n child =>
    simp only [Tree.childAt] at h
    split at h
    · cases h; exact hs c ‹_›
    · simp at h
  | inter b o n child =>
    simp only [Tree.childAt] at h
    split at h
    · cases h; exact hs c ‹_›
    · simp at h
  | chunked b child =>
    simp only [Tree.childAt] at h
    split at h
    · cases h; exact hs
    · simp at h
  | permuted b child =>
    simp only [Tree.childAt] at h
    split at h
    · cases h; exact hs
    · simp at h

theorem isDof_child {T C : Tree} {c : Nat} (h : T.childAt c = some C) (hc : T.consume = true) {t e : Nat} {p : List Nat}
    (hd : T.IsDof t e (c :: p)) : C.IsDof t e p := by
  cases T with
  | direct l => simp [Tree.childAt] at h
  | loc l =>
    cases l with
    | leaf a => simp [Tree.childAt] at h
    | node b a n child =>
      simp only [Tree.childAt] at h
      obtain ⟨c', q, h1, h2, h3⟩ := hd
      simp only [List.cons.injEq] at h1
      obtain ⟨rfl, rfl⟩ := h1
      rw [if_pos h2] at h
      cases h
      exact h3
  | gridView g => simp [Tree.consume] at hc
  | lex b o n child =>
    simp only [Tree.childAt] at h
    obtain ⟨c', q, h1, h2, h3⟩ := hd
    simp only [List.cons.injEq] at h1
    obtain ⟨rfl, rfl⟩ := h1
    rw [if_pos h2] at h
    cases h
    exact h3
  | inter b o n child =>
    simp only [Tree.childAt] at h
    obtain ⟨c', q, h1, h2, h3⟩ := hd
    simp only [List.cons.injEq] at h1
    obtain ⟨rfl, rfl⟩ := h1
    rw [if_pos h2] at h
    cases h
    exact h3
  | chunked b child => simp [Tree.consume] at hc
  | permuted b child => simp [Tree.consume] at hc

theorem isDof_deco {T C : Tree} (h : T.childAt 0 = some C) (hc : T.consume = false) {t e : Nat} {p : List Nat}
    (hd : T.IsDof t e p) : C.IsDof t e p := by
  cases T with
  | direct l => simp [Tree.childAt] at h
  | loc l => simp [Tree.consume] at hc
  | gridView g => simp only [Tree.childAt, if_true, Option.some.injEq] at h; subst h; exact hd
  | lex b o n child => simp [Tree.consume] at hc
  | inter b o n child => simp [Tree.consume] at hc
  | chunked b child => simp only [Tree.childAt, if_true, Option.some.injEq] at h; subst h; exact hd
  | permuted b child => simp only [Tree.childAt, if_true, Option.some.injEq] at h; subst h; exact hd

theorem filter_prefix (c : Nat) (p : List Nat) (paths : Nat → List (List Nat)) : ∀ n,
    ((List.range n).flatMap fun c => (paths c).map (c :: ·)).filter (fun q => (c :: p).isPrefixOf q) =
      if c < n then ((paths c).filter fun q => p.isPrefixOf q).map (c :: ·) else []
  | 0 => by simp
  | n + 1 => by
    rw [List.range_succ, List.flatMap_append, List.filter_append, filter_prefix c p paths n]
    simp only [List.flatMap_cons, List.flatMap_nil, List.append_nil, List.filter_map]
    rcases Nat.lt_trichotomy c n with h | h | h
    · rw [if_pos h, if_pos (by omega)]
      have : (paths n).filter ((fun q => (c :: p).isPrefixOf q) ∘ (n :: ·)) = [] := by
        apply List.filter_eq_nil_iff.2
        intro q _
        simp [show c ≠ n by omega]
      rw [this]
      simp
    · subst h
      rw [if_neg (by omega), if_pos (by omega)]
      simp [List.isPrefixOf, Function.comp_def]
    · rw [if_neg (by omega), if_neg (by omega)]
      have : (paths n).filter ((fun q => (c :: p).isPrefixOf q) ∘ (n :: ·)) = [] := by
        apply List.filter_eq_nil_iff.2
        intro q _
        simp [show c ≠ n by omega]
      rw [this]
      simp

theorem paths_child {T C : Tree} {c : Nat} (h : T.childAt c = some C) (hc : T.consume = true) (p : List Nat) :
    T.paths.filter (fun q => (c :: p).isPrefixOf q) = (C.paths.filter fun q => p.isPrefixOf q).map (c :: ·) := by
  cases T with
  | direct l => simp [Tree.childAt] at h
  | loc l =>
    cases l with
    | leaf a => simp [Tree.childAt] at h
    | node b a n child =>
      simp only [Tree.childAt] at h
      split at h
      · cases h
        simp only [Tree.paths, localPaths]
        rw [filter_prefix c p (fun c => localPaths (child c)) n, if_pos ‹_›]
      · simp at h
  | gridView g => simp [Tree.consume] at hc
  | lex b o n child =>
    simp only [Tree.childAt] at h
    split at h
    · cases h
      simp only [Tree.paths]
      rw [filter_prefix c p (fun c => (child c).paths) n, if_pos ‹_›]
    · simp at h
  | inter b o n child =>
    simp only [Tree.childAt] at h
    split at h
    · cases h
      simp only [Tree.paths]
      rw [filter_prefix c p (fun c => (child c).paths) n, if_pos ‹_›]
    · simp at h
  | chunked b child => simp [Tree.consume] at hc
  | permuted b child => simp [Tree.consume] at hc

theorem paths_deco {T C : Tree} (h : T.childAt 0 = some C) (hc : T.consume = false) : T.paths = C.paths := by
  cases T with
  | direct l => simp [Tree.childAt] at h
  | loc l => simp [Tree.consume] at hc
  | gridView g => simp only [Tree.childAt, if_true, Option.some.injEq] at h; subst h; rfl
  | lex b o n child => simp [Tree.consume] at hc
  | inter b o n child => simp [Tree.consume] at hc
  | chunked b child => simp only [Tree.childAt, if_true, Option.some.injEq] at h; subst h; rfl
  | permuted b child => simp only [Tree.childAt, if_true, Option.some.injEq] at h; subst h; rfl

theorem mapAt_congr_up {pre : List Nat} {T : Tree} {up : List Tree} {R : DI → Option CI} {isDof : DI → Prop} {C : Tree} {c : Nat}
    (hs : T.Sane) (hT : ∀ d, isDof d → T.IsDof d.t d.e d.path)
    (hm : MapAt pre (fun D => mapAncestors D up) (fun d => T.mapIndex d.t d.e d.path) R isDof)
    (h : T.childAt c = some C) (hc : T.consume = true) :
    MapAt (pre ++ [c]) (fun D => mapAncestors D (T :: up)) (fun d => C.mapIndex d.t d.e d.path)
      (fun d => R { d with path := c :: d.path }) (fun d => isDof { d with path := c :: d.path }) := by
  intro LL D1 D2 A B hd
  have e0 : dofs [] (LL.map fun x => (c :: x.1, x.2)) = (dofs [] LL).map fun d => { d with path := c :: d.path } := by
    rw [dofs_cons, dofs_pre]; rfl
  have hd' : ∀ d ∈ dofs [] (LL.map fun x => (c :: x.1, x.2)), (R d).isSome ∧ isDof d := by
    rw [e0]
    intro d hm
    obtain ⟨d', h1, rfl⟩ := List.mem_map.1 hm
    exact hd d' h1
  obtain ⟨a1, a2⟩ := hm _ D1 D2 A B hd'
  have hst := mapAt_step pre T.lfsStep T.inner (fun d => T.mapIndex d.t d.e d.path) isDof
    (fun d y h1 h2 => step_ok T hs d y h1 (hT d h2))
  obtain ⟨b1, b2⟩ := hst _ D1 D2 A B (fun d hdm => ⟨a1 d hdm, (hd' d hdm).2⟩)
  rw [e0] at a2 b1 b2
  simp only [List.map_map, Function.comp_def, inner_child h hc, dofs_cons] at a2 b1 b2
  refine ⟨?_, ?_⟩
  · intro d hdm
    have := b1 _ (List.mem_map.2 ⟨d, hdm, rfl⟩)
    rwa [inner_child h hc] at this
  · simp only [mapAncestors, hc, if_true, List.length_append, List.length_singleton, Nat.add_sub_cancel]
    rw [b2]
    exact a2

theorem mapAt_congr_deco {pre : List Nat} {T : Tree} {up : List Tree} {R : DI → Option CI} {isDof : DI → Prop} {C : Tree}
    (hs : T.Sane) (hT : ∀ d, isDof d → T.IsDof d.t d.e d.path)
    (hm : MapAt pre (fun D => mapAncestors D up) (fun d => T.mapIndex d.t d.e d.path) R isDof)
    (h : T.childAt 0 = some C) (hc : T.consume = false) :
    MapAt pre (fun D => mapAncestors D (T :: up)) (fun d => C.mapIndex d.t d.e d.path) R isDof := by
  intro LL D1 D2 A B hd
  obtain ⟨a1, a2⟩ := hm _ D1 D2 A B hd
  have hst := mapAt_step pre T.lfsStep T.inner (fun d => T.mapIndex d.t d.e d.path) isDof
    (fun d y h1 h2 => step_ok T hs d y h1 (hT d h2))
  obtain ⟨b1, b2⟩ := hst _ D1 D2 A B (fun d hdm => ⟨a1 d hdm, (hd d hdm).2⟩)
  simp only [inner_deco h hc] at a2 b1 b2
  refine ⟨b1, ?_⟩
  simp only [mapAncestors, hc, Bool.false_eq_true, if_false]
  rw [b2]
  exact a2

/-- Along the ancestors of a subspace. -/
theorem ancestors_ok : ∀ (fuel : Nat) (T : Tree) (sub : List Nat) (up res : List Tree) (pre : List Nat) (R : DI → Option CI)
    (isDof : DI → Prop), ancestors fuel T sub up = some res → T.Sane → (∀ d, isDof d → T.IsDof d.t d.e d.path) →
    MapAt pre (fun D => mapAncestors D up) (fun d => T.mapIndex d.t d.e d.path) R isDof →
    ∃ target up', res = target :: up' ∧ target.Sane ∧
      (∀ d : DI, isDof { d with path := sub ++ d.path } → target.IsDof d.t d.e d.path) ∧
      T.paths.filter (fun q => sub.isPrefixOf q) = target.paths.map (sub ++ ·) ∧
      MapAt (pre ++ sub) (fun D => mapAncestors D up') (fun d => target.mapIndex d.t d.e d.path)
        (fun d => R { d with path := sub ++ d.path }) (fun d => isDof { d with path := sub ++ d.path })
  | fuel, T, [], up, res, pre, R, isDof, h, hs, hT, hm => by
    have h' : res = T :: up := by cases fuel <;> simp [ancestors] at h <;> exact h.symm
    refine ⟨T, up, h', hs, hT, ?_, ?_⟩
    · simp [List.isPrefixOf]
    · simpa using hm
  | 0, T, c :: p, up, res, pre, R, isDof, h, hs, hT, hm => by simp [ancestors] at h
  | fuel + 1, T, c :: p, up, res, pre, R, isDof, h, hs, hT, hm => by
    simp only [ancestors] at h
    by_cases hc : T.consume = true
    · rw [if_pos hc] at h
      obtain ⟨C, h1, h2⟩ := Option.bind_eq_some_iff.1 h
      obtain ⟨target, up', b1, b2, b3, b4, b5⟩ := ancestors_ok fuel C p (T :: up) res (pre ++ [c]) _ _ h2 (sane_child h1 hs)
        (fun d hd => isDof_child h1 hc (hT _ hd)) (mapAt_congr_up hs hT hm h1 hc)
      refine ⟨target, up', b1, b2, b3, ?_, ?_⟩
      · rw [paths_child h1 hc, b4]; simp
      · rw [show pre ++ c :: p = pre ++ [c] ++ p by simp]
        exact b5
    · rw [if_neg hc] at h
      have hc : T.consume = false := by simpa using hc
      obtain ⟨C, h1, h2⟩ := Option.bind_eq_some_iff.1 h
      obtain ⟨target, up', b1, b2, b3, b4, b5⟩ := ancestors_ok fuel C (c :: p) (T :: up) res pre R isDof h2 (sane_child h1 hs)
        (fun d hd => isDof_deco h1 hc (hT _ hd)) (mapAt_congr_deco hs hT hm h1 hc)
      exact ⟨target, up', b1, b2, b3, by rw [paths_deco h1 hc, b4], b5⟩

theorem ancestors_local : ∀ (l : Local) (sub : List Nat) (q : List Nat), q ∈ localPaths l → sub <+: q →
    ∃ f0, ∀ fuel, f0 ≤ fuel → ∀ up, (ancestors fuel (.loc l) sub up).isSome
  | .leaf a, sub, q, hq, hp => by
    simp only [localPaths, List.mem_singleton] at hq
    subst hq
    obtain rfl : sub = [] := by simpa using hp
    exact ⟨0, fun fuel _ up => by cases fuel <;> simp [ancestors]⟩
  | .node b a n child, [], q, hq, hp => ⟨0, fun fuel _ up => by cases fuel <;> simp [ancestors]⟩
  | .node b a n child, c :: p, q, hq, hp => by
    simp only [localPaths] at hq
    obtain ⟨c', hc', hq⟩ := List.mem_flatMap.1 hq
    obtain ⟨q', hq', rfl⟩ := List.mem_map.1 hq
    obtain ⟨rfl, hp'⟩ := List.cons_prefix_cons.1 hp
    obtain ⟨f0, h0⟩ := ancestors_local (child c) p q' hq' hp'
    refine ⟨f0 + 1, fun fuel hf up => ?_⟩
    obtain ⟨f, rfl⟩ : ∃ f, fuel = f + 1 := ⟨fuel - 1, by omega⟩
    simp only [ancestors, Tree.consume, if_true, Tree.childAt]
    rw [if_pos (List.mem_range.1 hc')]
    exact h0 f (by omega) _

theorem ancestors_exist : ∀ (T : Tree) (sub : List Nat) (q : List Nat), q ∈ T.paths → sub <+: q →
    ∃ f0, ∀ fuel, f0 ≤ fuel → ∀ up, (ancestors fuel T sub up).isSome
  | _, [], _, _, _ => ⟨0, fun fuel _ up => by cases fuel <;> simp [ancestors]⟩
  | .direct l, c :: p, q, hq, hp => by
    simp only [Tree.paths, List.mem_singleton] at hq
    subst hq
    simp at hp
  | .loc l, c :: p, q, hq, hp => ancestors_local l (c :: p) q hq hp
  | .gridView g, c :: p, q, hq, hp => by
    obtain ⟨f0, h0⟩ := ancestors_local g.loc (c :: p) q hq hp
    refine ⟨f0 + 1, fun fuel hf up => ?_⟩
    obtain ⟨f, rfl⟩ : ∃ f, fuel = f + 1 := ⟨fuel - 1, by omega⟩
    simpa [ancestors, Tree.consume, Tree.childAt] using h0 f (by omega) _
  | .lex b o n child, c :: p, q, hq, hp => by
    simp only [Tree.paths] at hq
    obtain ⟨c', hc', hq⟩ := List.mem_flatMap.1 hq
    obtain ⟨q', hq', rfl⟩ := List.mem_map.1 hq
    obtain ⟨rfl, hp'⟩ := List.cons_prefix_cons.1 hp
    obtain ⟨f0, h0⟩ := ancestors_exist (child c) p q' hq' hp'
    refine ⟨f0 + 1, fun fuel hf up => ?_⟩
    obtain ⟨f, rfl⟩ : ∃ f, fuel = f + 1 := ⟨fuel - 1, by omega⟩
    simp only [ancestors, Tree.consume, if_true, Tree.childAt]
    rw [if_pos (List.mem_range.1 hc')]
    exact h0 f (by omega) _
  | .inter b o n child, c :: p, q, hq, hp => by
    simp only [Tree.paths] at hq
    obtain ⟨c', hc', hq⟩ := List.mem_flatMap.1 hq
    obtain ⟨q', hq', rfl⟩ := List.mem_map.1 hq
    obtain ⟨rfl, hp'⟩ := List.cons_prefix_cons.1 hp
    obtain ⟨f0, h0⟩ := ancestors_exist (child c) p q' hq' hp'
    refine ⟨f0 + 1, fun fuel hf up => ?_⟩
    obtain ⟨f, rfl⟩ : ∃ f, fuel = f + 1 := ⟨fuel - 1, by omega⟩
    simp only [ancestors, Tree.consume, if_true, Tree.childAt]
    rw [if_pos (List.mem_range.1 hc')]
    exact h0 f (by omega) _
  | .chunked b child, c :: p, q, hq, hp => by
    obtain ⟨f0, h0⟩ := ancestors_exist child (c :: p) q hq hp
    refine ⟨f0 + 1, fun fuel hf up => ?_⟩
    obtain ⟨f, rfl⟩ : ∃ f, fuel = f + 1 := ⟨fuel - 1, by omega⟩
    simpa [ancestors, Tree.consume, Tree.childAt] using h0 f (by omega) _
  | .permuted b child, c :: p, q, hq, hp => by
    obtain ⟨f0, h0⟩ := ancestors_exist child (c :: p) q hq hp
    refine ⟨f0 + 1, fun fuel hf up => ?_⟩
    obtain ⟨f, rfl⟩ : ∃ f, fuel = f + 1 := ⟨fuel - 1, by omega⟩
    simpa [ancestors, Tree.consume, Tree.childAt] using h0 f (by omega) _

theorem mapAt_comp {pre : List Nat} {m1 m2 : List DI → It → It → Nat → List CI → Option (List CI)} {mi0 mi1 mi2 : DI → Option CI}
    {isDof1 isDof2 : DI → Prop} (h1 : MapAt pre m1 mi0 mi1 isDof1) (h2 : MapAt pre m2 mi1 mi2 isDof2)
    (hi : ∀ d, isDof2 d → isDof1 d) :
    MapAt pre (fun D f l o cis => (m1 D f l o cis).bind (m2 D f l o)) mi0 mi2 isDof2 := by
  intro LL D1 D2 A B hd
  obtain ⟨a1, a2⟩ := h2 LL D1 D2 A B hd
  obtain ⟨b1, b2⟩ := h1 LL D1 D2 A B (fun d hm => ⟨a1 d hm, hi d (hd d hm).2⟩)
  refine ⟨b1, ?_⟩
  simp only
  rw [b2]
  exact a2

theorem init_cis (LL : List (List Nat × List LeafDof)) (n : Nat) (h : (dofs [] LL).length ≤ n) :
    List.replicate n ([] : CI) = (dofs [] LL).map (fun _ => []) ++ List.replicate (n - (dofs [] LL).length) [] := by
  rw [List.map_const', List.replicate_append_replicate]
  congr 1
  omega

/-- The cache of a local function space. -/
theorem lfsCache_ok (T : Tree) (hs : T.Sane) (LL : List (List Nat × List LeafDof)) (n : Nat) (hp : LL.map (·.1) = T.paths)
    (hd : ∀ d ∈ dofs [] LL, (T.mapIndex d.t d.e d.path).isSome ∧ T.IsDof d.t d.e d.path) (hn : (dofs [] LL).length ≤ n) :
    lfsCache T (groupSizes LL) (dofs [] LL) n =
      some ((dofs [] LL).map (fun d => (T.mapIndex d.t d.e d.path).getD []) ++ List.replicate (n - (dofs [] LL).length) []) := by
  have h := tree_vis T hs [] LL [] [] [] [] [] (List.replicate (n - (dofs [] LL).length) []) hp hd
  simp only [List.nil_append, List.append_nil, List.length_nil, Nat.add_zero] at h
  unfold lfsCache
  rw [init_cis LL n hn, h]
  rfl

/-- The cache of a local function space of a subspace. -/
theorem subCache_ok (T : Tree) (hs : T.Sane) (sub : List Nat) (LL : List (List Nat × List LeafDof)) (n : Nat) (hne : LL ≠ [])
    (hp : LL.map (fun x => sub ++ x.1) = T.paths.filter (fun q => sub.isPrefixOf q))
    (hd : ∀ d ∈ dofs sub LL, (T.mapIndex d.t d.e d.path).isSome ∧ T.IsDof d.t d.e d.path) (hn : (dofs sub LL).length ≤ n) :
    ∃ f0, ∀ fuel, f0 ≤ fuel → subCache fuel T sub (groupSizes LL) (dofs sub LL) n =
      some ((dofs sub LL).map (fun d => (T.mapIndex d.t d.e d.path).getD []) ++ List.replicate (n - (dofs sub LL).length) []) := by
  obtain ⟨x, hx⟩ : ∃ x, x ∈ LL := by
    cases LL with
    | nil => exact absurd rfl hne
    | cons x xs => exact ⟨x, by simp⟩
  have hq : sub ++ x.1 ∈ T.paths.filter (fun q => sub.isPrefixOf q) := by rw [← hp]; exact List.mem_map.2 ⟨x, hx, rfl⟩
  obtain ⟨f0, h0⟩ := ancestors_exist T sub _ (List.mem_filter.1 hq).1 (by simp)
  refine ⟨f0, fun fuel hf => ?_⟩
  obtain ⟨res, hr⟩ := Option.isSome_iff_exists.1 (h0 fuel hf [])
  obtain ⟨target, up, rfl, h1, h2, h3, h4⟩ := ancestors_ok fuel T sub [] res [] (fun d => T.mapIndex d.t d.e d.path)
    (fun d => T.IsDof d.t d.e d.path) hr hs (fun _ h => h) (by
      intro LL D1 D2 A B hd
      exact ⟨fun d hm => (hd d hm).1, rfl⟩)
  simp only [List.nil_append] at h4
  have hm : MapAt sub (fun D => subMap D target up) target.inner (fun d => T.mapIndex d.t d.e (sub ++ d.path))
      (fun d => T.IsDof d.t d.e (sub ++ d.path)) :=
    mapAt_comp (mapAt_step sub target.lfsStep target.inner _ _ (step_ok target h1)) h4 h2
  have hp' : LL.map (·.1) = target.paths := by
    rw [h3] at hp
    have : (LL.map (·.1)).map (sub ++ ·) = target.paths.map (sub ++ ·) := by simpa [Function.comp_def] using hp
    exact List.map_injective_iff.2 (fun a b h => List.append_cancel_left h) this
  have hv := sub_vis sub target h1 up _ _ h2 hm LL [] [] [] [] [] (List.replicate (n - (dofs sub LL).length) []) hp' (by
    intro d hdm
    exact hd { d with path := sub ++ d.path } (by rw [dofs_pre]; exact List.mem_map.2 ⟨d, hdm, rfl⟩))
  simp only [List.nil_append, List.append_nil, List.length_nil, Nat.add_zero] at hv
  have hl := dofs_length_pre sub LL
  unfold subCache
  rw [hr]
  simp only [Option.bind_some]
  rw [init_cis LL n (by omega), ← hl, hv]
  simp only [Option.map_some]
  rw [dofs_pre sub LL]
  simp [Function.comp_def]

end Verif.IndexRoutes
