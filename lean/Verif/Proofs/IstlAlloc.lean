import Verif.Proofs.IstlAccess
import Verif.Props.Pattern
set_option linter.unusedSectionVars false
/-
Helpers for the theorem about the construction of matrices from patterns.
-/
namespace Verif.Istl

open Pattern

variable {K : Type} {n m d : Nat}

/-- The pattern after a history of links. -/
def Built : Shape → List (List Nat × List Nat) → NPat → Prop
  | .leaf rows epr, h, t => ∃ p, t = .leaf p ∧ Inv p rows epr (h.filterMap fun x => leafLink [] x.1 x.2)
  | .node rows cols sub, h, t => ∃ subs, t = .node cols subs ∧
      ∀ i < rows, ∀ j < cols, ∃ s, subs[i * cols + j]? = some s ∧ Built (sub i j) (restrict i j h) s

theorem built_new (sh : Shape) (h : List (List Nat × List Nat)) (hv : ∀ x ∈ h, sh.Valid x.1 x.2) :
    ∃ t, (NPat.new sh).adds h = some t ∧ Built sh h t := by
  induction sh generalizing h with
  | leaf rows epr =>
    obtain ⟨p', e, i⟩ := new_leaf_hist h rows epr hv (Pat.new rows epr) [] (inv_new rows epr)
    exact ⟨.leaf p', by simpa [NPat.new] using e, p', rfl, by simpa using i⟩
  | node rows cols sub ih =>
    have hget : ∀ i j, i < rows → j < cols →
        ((List.range rows).flatMap fun i => (List.range cols).map fun j => NPat.new (sub i j))[i * cols + j]?
          = some (NPat.new (sub i j)) := by
      intro i j hi hj
      exact ListAux.getElem?_flatMap_range rows cols (fun i j => NPat.new (sub i j)) i j hi hj
    have hvr : ∀ i j, i < rows → j < cols → ∀ x ∈ restrict i j h, (sub i j).Valid x.1 x.2 := by
      intro i j hi hj x hx
      obtain ⟨r, c⟩ := x
      have := hv _ ((mem_restrict i j h r c).1 hx)
      simp only [Shape.Valid] at this
      exact this.2.2
    obtain ⟨subs', e, l, g⟩ := node_hist rows cols sub h hv
      ((List.range rows).flatMap fun i => (List.range cols).map fun j => NPat.new (sub i j))
      (ListAux.length_flatMap_range rows cols (fun i j => NPat.new (sub i j)))
      (by
        intro i j hi hj s hs
        rw [hget i j hi hj] at hs
        simp at hs; subst hs
        obtain ⟨t, ht, _⟩ := ih i j (restrict i j h) (hvr i j hi hj)
        exact ⟨t, ht⟩)
    refine ⟨.node cols subs', by simpa [NPat.new] using e, subs', rfl, ?_⟩
    intro i hi j hj
    obtain ⟨s, s', q1, q2, q3⟩ := g i j hi hj
    rw [hget i j hi hj] at q1
    simp at q1; subst q1
    obtain ⟨t, ht, hp⟩ := ih i j (restrict i j h) (hvr i j hi hj)
    rw [ht] at q3
    simp at q3; subst q3
    exact ⟨t, q2, hp⟩

/-! ### Multi-indices that are longer than necessary -/

/-- A nested pattern with `d` levels everywhere. -/
def DepthP : Nat → NPat → Prop
  | 0, .leaf _ => True
  | d + 1, .node _ subs => ∀ s ∈ subs, DepthP d s
  | _, _ => False

theorem depth_new (sh : Shape) (h : Depth d sh) : DepthP d (NPat.new sh) := by
  induction d generalizing sh with
  | zero =>
    cases sh with
    | leaf r e => trivial
    | node r c s => exact h.elim
  | succ d ih =>
    cases sh with
    | leaf r e => exact h.elim
    | node r c s =>
      intro t ht
      simp only [List.mem_flatMap, List.mem_map, List.mem_range] at ht
      obtain ⟨i, hi, j, hj, rfl⟩ := ht
      exact ih _ (h i hi j hj)

theorem add_take (t : NPat) (r c : List Nat) (h : DepthP d t) :
    t.add r c = t.add (r.take (d + 1)) (c.take (d + 1)) ∧ ∀ t', t.add r c = some t' → DepthP d t' := by
  induction d generalizing t r c with
  | zero =>
    cases t with
    | node c s => exact h.elim
    | leaf p =>
      cases r with
      | nil => exact ⟨by simp [NPat.add], by simp [NPat.add]⟩
      | cons i r =>
        cases c with
        | nil => exact ⟨by simp [NPat.add], by simp [NPat.add]⟩
        | cons j c =>
          refine ⟨by simp [NPat.add], ?_⟩
          intro t' ht'
          simp only [NPat.add, Option.map_eq_some_iff] at ht'
          obtain ⟨q, _, rfl⟩ := ht'
          trivial
  | succ d ih =>
    cases t with
    | leaf p => exact h.elim
    | node cols subs =>
      cases r with
      | nil => exact ⟨by simp [NPat.add], by simp [NPat.add]⟩
      | cons i r =>
        cases c with
        | nil => exact ⟨by simp [NPat.add], by simp [NPat.add]⟩
        | cons j c =>
          simp only [List.take_succ_cons, NPat.add]
          cases hs : subs[i * cols + j]? with
          | none => simp
          | some s =>
            have hd : DepthP d s := h s (List.mem_of_getElem? hs)
            obtain ⟨h1, h2⟩ := ih s r c hd
            refine ⟨by simp only [← h1], ?_⟩
            intro t' ht'
            simp only [Option.map_eq_some_iff] at ht'
            obtain ⟨s', hs', rfl⟩ := ht'
            intro x hx
            rcases List.mem_or_eq_of_mem_set hx with hx | rfl
            · exact h x hx
            · exact h2 _ hs'

theorem adds_take (h : List (List Nat × List Nat)) (t : NPat) (hd : DepthP d t) :
    t.adds h = t.adds (h.map fun x => (x.1.take (d + 1), x.2.take (d + 1))) := by
  induction h generalizing t with
  | nil => rfl
  | cons x xs ih =>
    obtain ⟨h1, h2⟩ := add_take t x.1 x.2 hd
    simp only [NPat.adds, List.map_cons, ← h1]
    cases ha : t.add x.1 x.2 with
    | none => rfl
    | some t' => exact ih t' (h2 _ ha)

/-! ### Allocation -/

theorem find_map {B : Type} (cols : List Nat) (f : Nat → B) (l : Nat) :
    find (cols.map fun j => (j, f j)) l = if l ∈ cols then some (f l) else none := by
  induction cols with
  | nil => simp [find]
  | cons c cs ih =>
    simp only [List.map_cons, find]
    by_cases h : c = l
    · subst h; simp
    · rw [if_neg h, ih]
      simp [Ne.symm h]

theorem mapM_range {B : Type} (k : Nat) (f : Nat → Option B) (g : Nat → B) (h : ∀ i < k, f i = some (g i)) :
    (List.range k).mapM f = some ((List.range k).map g) := by
  have : ∀ l : List Nat, (∀ i ∈ l, f i = some (g i)) → l.mapM f = some (l.map g) := by
    intro l
    induction l with
    | nil => intro _; rfl
    | cons x xs ih =>
      intro hl
      rw [List.mapM_cons, hl x List.mem_cons_self]
      change Option.bind (some (g x)) _ = _
      rw [Option.bind_some, ih fun i hi => hl i (List.mem_cons_of_mem _ hi)]
      rfl
  exact this _ fun i hi => h i (List.mem_range.1 hi)

theorem restrict_eq (i j : Nat) (h : List (List Nat × List Nat)) : restrict i j h = inBlock i j h := by
  unfold restrict inBlock
  congr 1
  funext x
  obtain ⟨a, b⟩ := x
  cases a with
  | nil => simp
  | cons a r =>
    cases b with
    | nil => simp
    | cons b c => simp

theorem sum_card (rows : Nat) (s : Finset (Nat × Nat)) (h : ∀ x ∈ s, x.1 < rows) :
    ((List.range rows).map fun i => (s.filter fun x => x.1 = i).card).sum = s.card := by
  rw [← List.sum_toFinset _ List.nodup_range]
  have e : (List.range rows).toFinset = Finset.range rows := by ext; simp
  rw [e]
  exact (Finset.card_eq_sum_card_fiberwise fun x hx => Finset.mem_coe.2 (Finset.mem_range.2 (h x hx))).symm

theorem foldl_max (l : List Nat) (f : Nat → Nat) (a : Nat) : (l.map f).foldl max a = max a (l.toFinset.sup f) := by
  induction l generalizing a with
  | nil => simp
  | cons x xs ih =>
    rw [List.map_cons, List.foldl_cons, ih, List.toFinset_cons, Finset.sup_insert, max_assoc]

theorem row_card {p : Pat} {rows epr : Nat} {h : List (Nat × Nat)} (hi : Inv p rows epr h) {i : Nat} {cols : List Nat}
    (hc : RowInv p h i cols) : (cols ++ ovCols p.overflow i).length = (h.toFinset.filter fun x => x.1 = i).card := by
  rw [← List.toFinset_card_of_nodup (nodup_columns hi hc)]
  apply Finset.card_bij (fun j _ => (i, j))
  · intro j hj
    simpa using (mem_columns hc j).1 (List.mem_toFinset.1 hj)
  · intro a _ b _ hab; simpa using hab
  · rintro ⟨a, b⟩ hb
    simp at hb
    obtain ⟨hb, rfl⟩ := hb
    exact ⟨b, List.mem_toFinset.2 ((mem_columns hc b).2 (by simpa using hb)), rfl⟩

theorem overflow_sum {p : Pat} {rows epr : Nat} {h : List (Nat × Nat)} (hi : Inv p rows epr h) :
    p.overflowCount = ∑ i ∈ Finset.range rows, ((h.toFinset.filter fun x => x.1 = i).card - epr) := by
  unfold Pat.overflowCount
  rw [ovCols_sum hi.ovRow]
  apply Finset.sum_congr rfl
  intro i hir
  rw [Finset.mem_range] at hir
  obtain ⟨cols, hc⟩ := hi.row i hir
  have h1 := row_card hi hc
  rw [← h1, List.length_append]
  have h2 := hc.len
  rw [hi.hepr] at h2
  cases ho : ovCols p.overflow i with
  | nil => simp; omega
  | cons j js =>
    have : (i, j) ∈ p.overflow := (mem_ovCols _ _ _).1 (by simp [ho])
    have := (hc.ov j this).2
    rw [hi.hepr] at this
    simp; omega

theorem leaf_links (h : List (List Nat × List Nat)) (rows epr : Nat) (hv : ∀ x ∈ h, Shape.Valid (.leaf rows epr) x.1 x.2) :
    (h.filterMap fun x => leafLink [] x.1 x.2) = h.map fun x => (x.1.headD 0, x.2.headD 0) := by
  induction h with
  | nil => rfl
  | cons x xs ih =>
    have hx := hv x List.mem_cons_self
    obtain ⟨a, b⟩ := x
    match a, b with
    | [i], [j] =>
      rw [List.map_cons, ← ih fun y hy => hv y (List.mem_cons_of_mem _ hy)]
      rfl
    | [], _ => exact hx.elim
    | [_], [] => exact hx.elim
    | _ :: _ :: _, [] => exact hx.elim
    | _ :: _ :: _, _ :: _ => exact hx.elim
    | [_], _ :: _ :: _ => exact hx.elim

theorem sub_node (cols : Nat) (subs : List NPat) (i j : Nat) : (NPat.node cols subs).sub [(i, j)] = subs[i * cols + j]? := by
  unfold NPat.sub
  cases subs[i * cols + j]? <;> simp [NPat.sub]

theorem allocate_built (g : K) (sh : Shape) (h : List (List Nat × List Nat)) (t : NPat) (hd : Depth d sh)
    (hv : ∀ x ∈ h, sh.Valid x.1 x.2) (hb : Built sh h t) :
    ∃ M : Mat K n m (d + 1), allocate g d sh t = some (M, statistics sh h) ∧
      (∀ r c a b, r.length = d + 1 → c.length = d + 1 → a < n → b < m →
        entryM (d + 1) M (r ++ [a]) (c ++ [b]) = if (r, c) ∈ h then some g else none) ∧
      ∀ r a, a < n → IsRow sh r → HasRow (d + 1) M (r ++ [a]) := by
  induction d generalizing sh h t with
  | zero =>
    cases sh with
    | node r c s => exact hd.elim
    | leaf rows epr =>
      obtain ⟨p, rfl, hi⟩ := hb
      rw [leaf_links h rows epr hv] at hi
      have hrow : ∀ i < rows, ∃ cols, p.columns i = some cols ∧ p.sizes[i]? = some cols.length ∧
          cols.length = ((links h).filter fun x => x.1 = i).card ∧ ∀ j, j ∈ cols ↔ ([i], [j]) ∈ h := by
        intro i hir
        obtain ⟨cols, hc⟩ := hi.row i hir
        refine ⟨_, columns_eq hi hir hc, sizes_get hi hir hc, row_card hi hc, fun j => ?_⟩
        rw [mem_columns hc, List.mem_map]
        constructor
        · rintro ⟨x, hx, e⟩
          have hx' := hv x hx
          obtain ⟨a, b⟩ := x
          match a, b with
          | [i'], [j'] =>
            simp only [List.headD_cons, Prod.mk.injEq] at e
            rw [← e.1, ← e.2]
            exact hx
          | [], _ => exact hx'.elim
          | [_], [] => exact hx'.elim
          | _ :: _ :: _, [] => exact hx'.elim
          | _ :: _ :: _, _ :: _ => exact hx'.elim
          | [_], _ :: _ :: _ => exact hx'.elim
        · intro hx
          exact ⟨_, hx, rfl⟩
      have hlinks : ∀ x ∈ links h, x.1 < rows := by
        intro x hx
        unfold links at hx
        rw [List.mem_toFinset, List.mem_map] at hx
        obtain ⟨y, hy, rfl⟩ := hx
        have hy' := hv y hy
        obtain ⟨a, b⟩ := y
        match a, b with
        | [i'], [j'] => exact hy'.1
        | [], _ => exact hy'.elim
        | [_], [] => exact hy'.elim
        | _ :: _ :: _, [] => exact hy'.elim
        | _ :: _ :: _, _ :: _ => exact hy'.elim
        | [_], _ :: _ :: _ => exact hy'.elim
      have hsz : ((List.range rows).map fun i => p.sizes.getD i 0) =
          (List.range rows).map fun i => ((links h).filter fun x => x.1 = i).card := by
        apply List.map_congr_left
        intro i hi'
        obtain ⟨cols, _, h2, h3, _⟩ := hrow i (List.mem_range.1 hi')
        rw [List.getD_eq_getElem?_getD, h2, Option.getD_some, h3]
      have hl : (List.range rows).mapM (allocateRow (n := n) (m := m) g p p.sizes) =
          some ((List.range rows).map fun i => ((p.columns i).getD []).map fun j => (j, Mat.ofField fun _ _ => g)) := by
        apply mapM_range
        intro i hir
        obtain ⟨cols, h1, h2, _⟩ := hrow i hir
        unfold allocateRow
        rw [h1, h2]
        change (if cols.length = cols.length then _ else _) = _
        rw [if_pos rfl]
        rfl
      refine ⟨Mat.ofRows ((List.range rows).map fun i => ((p.columns i).getD []).map fun j => (j, Mat.ofField fun _ _ => g)), ?_, ?_, ?_⟩
      · unfold allocate
        rw [hl]
        change some (_, _) = some (_, _)
        congr 2
        unfold statistics statsOf
        rw [hsz, sum_card rows _ hlinks, foldl_max, overflow_sum hi, hi.hepr]
        have e : (List.range rows).toFinset = Finset.range rows := by ext; simp
        rw [e]
        simp [links]
      · intro r c a b hr hc ha hb
        obtain ⟨i, rfl⟩ := singletons hr
        obtain ⟨j, rfl⟩ := singletons hc
        rw [List.singleton_append, List.singleton_append, entryM_cons]
        change (((List.range rows).map fun i => ((p.columns i).getD []).map fun j => (j, (Mat.ofField fun _ _ => g : Mat K n m 0)))[i]?).bind _ = _
        by_cases hir : i < rows
        · obtain ⟨cols, h1, _, _, h4⟩ := hrow i hir
          rw [List.getElem?_map, List.getElem?_range hir, Option.map_some, Option.bind_some, h1, Option.getD_some, find_map]
          by_cases hm : j ∈ cols
          · rw [if_pos hm, if_pos ((h4 j).1 hm), Option.bind_some, entryM_one, dif_pos ⟨ha, hb⟩]
            rfl
          · rw [if_neg hm, if_neg fun h => hm ((h4 j).2 h)]
            rfl
        · rw [List.getElem?_eq_none (by simpa using hir), if_neg]
          · rfl
          · intro hx
            exact hir (hv _ hx).1
      · intro r a ha hr
        match r with
        | [] => exact hr.elim
        | _ :: _ :: _ => exact hr.elim
        | [i] =>
          have hir : i < rows := hr
          rw [List.singleton_append, hasRow_cons]
          refine ⟨((p.columns i).getD []).map fun j => (j, Mat.ofField fun _ _ => g), ?_, ?_⟩
          · change ((List.range rows).map fun i => ((p.columns i).getD []).map fun j => (j, (Mat.ofField fun _ _ => g : Mat K n m 0)))[i]? = _
            rw [List.getElem?_map, List.getElem?_range hir, Option.map_some]
          · intro x _
            exact ha
  | succ d ih =>
    cases sh with
    | leaf r e => exact hd.elim
    | node rows cols sub =>
      obtain ⟨subs, rfl, hs⟩ := hb
      have hblock : ∀ i < rows, ∀ j < cols, ∃ (s : NPat) (M : Mat K n m (d + 1)), subs[i * cols + j]? = some s ∧
          allocate g d (sub i j) s = some (M, statistics (sub i j) (inBlock i j h)) ∧
          (∀ r c a b, r.length = d + 1 → c.length = d + 1 → a < n → b < m →
            entryM (d + 1) M (r ++ [a]) (c ++ [b]) = if (i :: r, j :: c) ∈ h then some g else none) ∧
          ∀ r a, a < n → IsRow (sub i j) r → HasRow (d + 1) M (r ++ [a]) := by
        intro i hi j hj
        obtain ⟨s, h1, h2⟩ := hs i hi j hj
        obtain ⟨M, e1, e2, e3⟩ := ih (sub i j) (restrict i j h) s (hd i hi j hj) (by
          rintro ⟨r, c⟩ hx
          have := hv _ ((mem_restrict i j h r c).1 hx)
          simp only [Shape.Valid] at this
          exact this.2.2) h2
        refine ⟨s, M, h1, by rw [e1, restrict_eq], ?_, e3⟩
        intro r c a b hr hc ha hb
        rw [e2 r c a b hr hc ha hb]
        simp only [mem_restrict]
      let block : Nat → Nat → Mat K n m (d + 1) := fun i j =>
        if hij : i < rows ∧ j < cols then (hblock i hij.1 j hij.2).choose_spec.choose else Mat.ofRows []
      have hb : ∀ i < rows, ∀ j < cols, ∃ s, subs[i * cols + j]? = some s ∧
          allocate g d (sub i j) s = some (block i j, statistics (sub i j) (inBlock i j h)) ∧
          (∀ r c a b, r.length = d + 1 → c.length = d + 1 → a < n → b < m →
            entryM (d + 1) (block i j) (r ++ [a]) (c ++ [b]) = if (i :: r, j :: c) ∈ h then some g else none) ∧
          ∀ r a, a < n → IsRow (sub i j) r → HasRow (d + 1) (block i j) (r ++ [a]) := by
        intro i hi j hj
        have e : block i j = (hblock i hi j hj).choose_spec.choose := dif_pos ⟨hi, hj⟩
        rw [e]
        exact ⟨(hblock i hi j hj).choose, (hblock i hi j hj).choose_spec.choose_spec⟩
      have hl : ((List.range rows).mapM fun i => (List.range cols).mapM fun j =>
            ((NPat.node cols subs).sub [(i, j)]).bind fun s => (allocate g d (sub i j) s).bind fun r => some ((j, r.1), r.2)) =
          some ((List.range rows).map fun i => (List.range cols).map fun j => ((j, block i j), statistics (sub i j) (inBlock i j h))) := by
        apply mapM_range
        intro i hi
        apply mapM_range
        intro j hj
        obtain ⟨s, h1, h2, _⟩ := hb i hi j hj
        rw [sub_node, h1, Option.bind_some, h2]
        rfl
      have hrows : ∀ i, ((List.range rows).map fun i => (List.range cols).map fun j => (j, block i j))[i]? =
          if i < rows then some ((List.range cols).map fun j => (j, block i j)) else none := by
        intro i
        by_cases hi : i < rows
        · rw [List.getElem?_map, List.getElem?_range hi, if_pos hi]; rfl
        · rw [List.getElem?_eq_none (by simpa using hi), if_neg hi]
      refine ⟨Mat.ofRows ((List.range rows).map fun i => (List.range cols).map fun j => (j, block i j)), ?_, ?_, ?_⟩
      · unfold allocate
        refine Eq.trans (congrArg (fun o => Option.bind o _) hl) ?_
        rw [Option.bind_some]
        congr 2
        · rw [List.map_map]
          congr 1
          apply List.map_congr_left
          intro i _
          simp
        · change _ = (List.range rows).flatMap fun i => (List.range cols).flatMap fun j => statistics (sub i j) (inBlock i j h)
          rw [List.flatMap_map]
          congr 1
          funext i
          rw [List.flatMap_map]
      · intro r c a b hr hc ha hb'
        match r, c with
        | [], _ => simp at hr
        | _ :: _, [] => simp at hc
        | i :: r, j :: c =>
          rw [List.cons_append, List.cons_append, entryM_cons]
          change (((List.range rows).map fun i => (List.range cols).map fun j => (j, block i j))[i]?).bind _ = _
          rw [hrows]
          by_cases hi : i < rows
          · rw [if_pos hi, Option.bind_some, find_map]
            by_cases hj : j < cols
            · obtain ⟨s, _, _, h3, _⟩ := hb i hi j hj
              rw [if_pos (List.mem_range.2 hj), Option.bind_some,
                h3 r c a b (by simpa using hr) (by simpa using hc) ha hb']
            · rw [if_neg (by simpa using hj), if_neg]
              · rfl
              · intro hx
                exact hj (hv _ hx).2.1
          · rw [if_neg hi, if_neg]
            · rfl
            · intro hx
              exact hi (hv _ hx).1
      · intro r a ha hr
        match r with
        | [] => exact hr.elim
        | i :: r =>
          obtain ⟨hi, hr⟩ : i < rows ∧ ∀ j < cols, IsRow (sub i j) r := hr
          rw [List.cons_append, hasRow_cons]
          refine ⟨(List.range cols).map fun j => (j, block i j), ?_, ?_⟩
          · change ((List.range rows).map fun i => (List.range cols).map fun j => (j, block i j))[i]? = _
            rw [hrows, if_pos hi]
          · intro x hx
            obtain ⟨j, hj, rfl⟩ := List.mem_map.1 hx
            obtain ⟨s, _, _, _, h4⟩ := hb i hi j (List.mem_range.1 hj)
            exact h4 r a ha (hr j (List.mem_range.1 hj))

end Verif.Istl
