import Verif.Spec.HangingNode
import Verif.Proofs.Constraints
import Mathlib.Algebra.CharZero.Defs
import Mathlib.Algebra.BigOperators.Group.List.Basic
import Mathlib.Data.List.Perm.Basic
import Mathlib.Tactic.FieldSimp
import Mathlib.Tactic.NormNum
/-
Helper lemmas for hanging nodes.
-/
namespace Verif.HangingNode

open Spec Verif.Constraints

section
variable {K : Type} [Field K]

/-- The row of a vertex after collecting: exactly the targets contributed. -/
theorem collect_row (rows : List (List (Nat × List (Nat × K)))) (v : Nat) (S : List Nat) (hS : S.Nodup) (hne : S ≠ []) (w : K)
    (h1 : ∀ r ∈ rows, ∀ row, (v, row) ∈ r → row ≠ [] ∧ ∀ e ∈ row, e.1 ∈ S ∧ e.2 = w)
    (h2 : ∀ s ∈ S, ∃ r ∈ rows, ∃ row, (v, row) ∈ r ∧ ∃ x, (s, x) ∈ row) :
    ∃ row, (∀ row', (v, row') ∈ (collect rows).rows ↔ row' = row) ∧ row.Perm (S.map fun s => (s, w)) := by
  classical
  have hrun : collect rows = runEvents (events (rows.map fun r => ({ index := id, rows := r } : Contribution Nat Nat K))) Trafo.empty :=
    assemble_eq_run _ _
  have hev : ∀ k r, (k, r) ∈ events (rows.map fun r => ({ index := id, rows := r } : Contribution Nat Nat K)) ↔
      ∃ c ∈ rows, (k, r) ∈ c := by
    intro k r
    rw [mem_events]
    constructor
    · rintro ⟨c, hc, d, row, hm, hk, hr⟩
      obtain ⟨c', hc', rfl⟩ := List.mem_map.1 hc
      refine ⟨c', hc', ?_⟩
      dsimp only [id] at hk hr
      subst hk
      rw [hr]
      simpa using hm
    · rintro ⟨c, hc, hm⟩
      refine ⟨_, List.mem_map.2 ⟨c, hc, rfl⟩, k, r, hm, rfl, ?_⟩
      simp
  have hinv := inv_run (events (rows.map fun r => ({ index := id, rows := r } : Contribution Nat Nat K)))
  rw [← hrun] at hinv
  obtain ⟨s0, hs0⟩ := List.exists_mem_of_ne_nil S hne
  obtain ⟨r0, hr0, row0, hrow0, -⟩ := h2 s0 hs0
  obtain ⟨row, hrow⟩ := (hinv.present v).2 ⟨row0, (hev v row0).2 ⟨r0, hr0, hrow0⟩⟩
  have hrowne : row ≠ [] := by
    rintro rfl
    obtain ⟨c, hc, hm⟩ := (hev v []).1 ((hinv.dirichlet v).1 hrow)
    exact (h1 c hc [] hm).1 rfl
  refine ⟨row, ?_, ?_⟩
  · intro row'
    rw [← find?_iff_mem v row' _ hinv.nodup, hrow]
    simp [eq_comm]
  · have hn := hinv.rowNodup v row hrow
    apply (List.perm_ext_iff_of_nodup (List.Nodup.of_map _ hn) ?_).2
    · intro e
      rw [List.mem_map]
      constructor
      · intro he
        have hf := (find?_iff_mem e.1 e.2 row hn).2 he
        obtain ⟨r', hr', hm⟩ := hinv.source v row e.1 e.2 hrow hf
        obtain ⟨c, hc, hm'⟩ := (hev v r').1 hr'
        obtain ⟨he1, he2⟩ := (h1 c hc r' hm').2 _ hm
        exact ⟨e.1, he1, by rw [← he2]⟩
      · rintro ⟨s, hs, rfl⟩
        obtain ⟨c, hc, r', hr', x, hx⟩ := h2 s hs
        obtain ⟨w', hw'⟩ := hinv.complete v row r' s x hrow hrowne ((hev v r').2 ⟨c, hc, hr'⟩) hx
        obtain ⟨r'', hr'', hm⟩ := hinv.source v row s w' hrow hw'
        obtain ⟨c', hc', hm'⟩ := (hev v r'').1 hr''
        have := ((h1 c' hc' r'' hm').2 _ hm).2
        dsimp only at this
        rw [← this]
        exact (find?_iff_mem s w' row hn).1 hw'
    · exact hS.map (fun a b h => by simpa using h)

theorem skeletonWith_fine (assemble : Nat → Side → Option (List (Nat × List (Nat × K)))) (d dimension : Nat) (hang : Nat → Bool)
    (fine other : Side) (h : OneSided d hang fine other) :
    skeletonWith assemble d dimension fine other = assemble dimension fine ∧
      skeletonWith assemble d dimension other fine = assemble dimension fine := by
  have h1 : fine.hasHanging d = true := by
    obtain ⟨v, hv, hh⟩ := h.hanging
    obtain ⟨i, hi, rfl⟩ := List.mem_map.1 hv
    unfold Side.hasHanging
    rw [List.any_eq_true]
    exact ⟨i, hi, by rw [h.consistent i hi, hh]⟩
  have h2 : other.hasHanging d = false := by
    unfold Side.hasHanging
    rw [List.any_eq_false]
    intro i hi
    simp [h.otherNot i hi]
  simp [skeletonWith, h1, h2]

/-- The choice made for one corner with neighbours `n1`, `n2` and the opposite corner `o`. -/
def cornerRow (hang : Nat → Bool) (v n1 n2 o : Nat) : List (Nat × List (Nat × K)) :=
  if hang v then
    if hang n1 && hang n2 then [(v, [(o, 1 / 4)])]
    else if !hang n1 then [(v, [(n1, 1 / 2)])]
    else if !hang n2 then [(v, [(n2, 1 / 2)])]
    else []
  else []

theorem mem_cornerRow (hang : Nat → Bool) (v n1 n2 o v' : Nat) (row : List (Nat × K)) (h : (v', row) ∈ cornerRow hang v n1 n2 o) :
    v' = v ∧ hang v = true ∧ ∃ t w, row = [(t, w)] ∧
      ((w = 1 / 4 ∧ t = o ∧ hang n1 = true ∧ hang n2 = true) ∨ (w = 1 / 2 ∧ (t = n1 ∨ t = n2) ∧ hang t = false)) := by
  unfold cornerRow at h
  cases hv : hang v <;> cases h1 : hang n1 <;> cases h2 : hang n2 <;> simp [hv, h1, h2] at h <;>
    (obtain ⟨rfl, rfl⟩ := h; simp [h1, h2])

theorem exists_cornerRow (hang : Nat → Bool) (v n1 n2 o : Nat) (hv : hang v = true) :
    ∃ row : List (Nat × K), (v, row) ∈ cornerRow hang v n1 n2 o := by
  unfold cornerRow
  cases h1 : hang n1 <;> cases h2 : hang n2 <;> simp [hv]

theorem adjacent_all (hang : Nat → Bool) (g0 g1 g2 g3 : Nat) (hn : [g0, g1, g2, g3].Nodup) (v n : Nat)
    (h : Adjacent [g0, g1, g2, g3] v n) :
    (v = g0 ∧ (n = g1 ∨ n = g2)) ∨ (v = g1 ∧ (n = g0 ∨ n = g3)) ∨ (v = g2 ∧ (n = g0 ∨ n = g3)) ∨ (v = g3 ∧ (n = g1 ∨ n = g2)) := by
  obtain ⟨a, b, c, d, hq, h⟩ := h
  simp only [List.cons.injEq, and_true] at hq
  obtain ⟨rfl, rfl, rfl, rfl⟩ := hq
  simp only [List.mem_cons, Prod.mk.injEq, List.not_mem_nil, or_false] at h
  omega

/-- The rows of a quadrilateral with hanging nodes. -/
theorem rowsQ1 (hang : Nat → Bool) (s : Side) (hc : Consistent 3 hang s) (hn : (corners 3 s).Nodup) (hsize : s.size = 8)
    (hlen : (s.sub 3).length = 4) :
    ∃ rows : List (Nat × List (Nat × K)), assembleQ1 3 s = some rows ∧
      (∀ v row, (v, row) ∈ rows → hang v = true ∧ v ∈ corners 3 s ∧ ∃ t w, row = [(t, w)] ∧
        ((w = 1 / 4 ∧ Opposite (corners 3 s) v t ∧ ∀ n, Adjacent (corners 3 s) v n → hang n = true) ∨
         (w = 1 / 2 ∧ Adjacent (corners 3 s) v t ∧ hang t = false))) ∧
      ∀ v ∈ corners 3 s, hang v = true → ∃ row, (v, row) ∈ rows := by
  match hm : s.sub 3, hlen with
  | [i0, i1, i2, i3], _ =>
    have hcor : corners 3 s = [s.index 3 i0, s.index 3 i1, s.index 3 i2, s.index 3 i3] := by simp [corners, hm]
    have c0 := hc i0 (by simp [hm])
    have c1 := hc i1 (by simp [hm])
    have c2 := hc i2 (by simp [hm])
    have c3 := hc i3 (by simp [hm])
    rw [hcor] at hn ⊢
    have hrows : assembleQ1 (K := K) 3 s = some (cornerRow hang (s.index 3 i0) (s.index 3 i1) (s.index 3 i2) (s.index 3 i3) ++
        (cornerRow hang (s.index 3 i1) (s.index 3 i0) (s.index 3 i3) (s.index 3 i2) ++
        (cornerRow hang (s.index 3 i2) (s.index 3 i0) (s.index 3 i3) (s.index 3 i1) ++
        cornerRow hang (s.index 3 i3) (s.index 3 i1) (s.index 3 i2) (s.index 3 i0)))) := by
      simp [assembleQ1, hm, hsize, rowQ1, cornerRow, fi, List.range_succ, c0, c1, c2, c3]
    refine ⟨_, hrows, ?_, ?_⟩
    · generalize s.index 3 i0 = g0 at *
      generalize s.index 3 i1 = g1 at *
      generalize s.index 3 i2 = g2 at *
      generalize s.index 3 i3 = g3 at *
      have hadj := adjacent_all hang g0 g1 g2 g3 hn
      simp only [List.nodup_cons, List.mem_cons, List.not_mem_nil, not_or, or_false] at hn
      intro v row h
      simp only [List.mem_append] at h
      have hA : ∀ x y, ((x, y) ∈ [(g0, g1), (g0, g2), (g1, g3), (g2, g3)] ∨ (y, x) ∈ [(g0, g1), (g0, g2), (g1, g3), (g2, g3)]) →
          Adjacent [g0, g1, g2, g3] x y := fun x y h => ⟨g0, g1, g2, g3, rfl, h⟩
      have hO : ∀ x y, ((x, y) ∈ [(g0, g3), (g1, g2)] ∨ (y, x) ∈ [(g0, g3), (g1, g2)]) →
          Opposite [g0, g1, g2, g3] x y := fun x y h => ⟨g0, g1, g2, g3, rfl, h⟩
      rcases h with h | h | h | h <;> obtain ⟨rfl, hv, t, w, rfl, h'⟩ := mem_cornerRow _ _ _ _ _ _ _ h <;>
        refine ⟨hv, by simp, t, w, rfl, ?_⟩ <;> clear h <;> rcases h' with ⟨hw, rfl, h1, h2⟩ | ⟨hw, ht, hh⟩
      all_goals first
        | (refine Or.inl ⟨hw, hO _ _ (by simp), fun n hn' => ?_⟩
           have hcase : ∀ x y : Nat, hang x = true → hang y = true → (n = x ∨ n = y) → hang n = true := by
             rintro x y hx hy (rfl | rfl) <;> assumption
           refine hcase _ _ h1 h2 ?_
           have := hadj _ _ hn'
           omega)
        | (refine Or.inr ⟨hw, hA _ _ ?_, hh⟩
           rcases ht with rfl | rfl <;> simp)
    · intro v hv hh
      simp only [List.mem_cons, List.not_mem_nil, or_false] at hv
      simp only [List.mem_append]
      rcases hv with rfl | rfl | rfl | rfl
      · obtain ⟨r, hr⟩ := exists_cornerRow (K := K) hang _ (s.index 3 i1) (s.index 3 i2) (s.index 3 i3) hh
        exact ⟨r, Or.inl hr⟩
      · obtain ⟨r, hr⟩ := exists_cornerRow (K := K) hang _ (s.index 3 i0) (s.index 3 i3) (s.index 3 i2) hh
        exact ⟨r, Or.inr (Or.inl hr)⟩
      · obtain ⟨r, hr⟩ := exists_cornerRow (K := K) hang _ (s.index 3 i0) (s.index 3 i3) (s.index 3 i1) hh
        exact ⟨r, Or.inr (Or.inr (Or.inl hr))⟩
      · obtain ⟨r, hr⟩ := exists_cornerRow (K := K) hang _ (s.index 3 i1) (s.index 3 i2) (s.index 3 i0) hh
        exact ⟨r, Or.inr (Or.inr (Or.inr hr))⟩

/-- The rows of an edge in two dimensions. -/
theorem rowsEdge (hang : Nat → Bool) (s : Side) (hc : Consistent 2 hang s) (a b : Nat) (hcor : corners 2 s = [a, b])
    (hone : ¬ (hang a = true ∧ hang b = true)) :
    edgeOk s (s.sub 2) = true ∧
      (List.range (s.sub 2).length).flatMap (rowEdge (K := K) s (s.sub 2) 2) =
        (if hang a then [(a, [(b, 1 / 2)])] else []) ++ (if hang b then [(b, [(a, 1 / 2)])] else []) := by
  match hm : s.sub 2 with
  | [] => simp [corners, hm] at hcor
  | [i] => simp [corners, hm] at hcor
  | [i, j] =>
    simp only [corners, hm, List.map_cons, List.map_nil, List.cons.injEq, and_true] at hcor
    have c0 := hc i (by simp [hm])
    have c1 := hc j (by simp [hm])
    obtain ⟨rfl, rfl⟩ := hcor
    constructor
    · simp only [edgeOk, List.getD_cons_zero, List.getD_cons_succ, c0, c1]
      cases h0 : hang (s.index 2 i) <;> cases h1 : hang (s.index 2 j) <;> simp_all
    · simp [rowEdge, List.range_succ, c0, c1]
  | i :: j :: k :: l => simp [corners, hm] at hcor

theorem rowsEdgeQ1 (hang : Nat → Bool) (s : Side) (hc : Consistent 2 hang s) (a b : Nat) (hcor : corners 2 s = [a, b])
    (hone : ¬ (hang a = true ∧ hang b = true)) (hsize : s.size = 4) :
    assembleQ1 (K := K) 2 s =
      some ((if hang a then [(a, [(b, 1 / 2)])] else []) ++ (if hang b then [(b, [(a, 1 / 2)])] else [])) := by
  obtain ⟨h1, h2⟩ := rowsEdge (K := K) hang s hc a b hcor hone
  have hne : (s.sub 2).isEmpty = false := by
    cases h : s.sub 2
    · simp [corners, h] at hcor
    · rfl
  simp [assembleQ1, hne, hsize, h1, h2]

theorem rowsEdgeP1 (hang : Nat → Bool) (s : Side) (hc : Consistent 2 hang s) (a b : Nat) (hcor : corners 2 s = [a, b])
    (hone : ¬ (hang a = true ∧ hang b = true)) (hsize : s.size = 3) :
    assembleP1 (K := K) 2 s =
      some ((if hang a then [(a, [(b, 1 / 2)])] else []) ++ (if hang b then [(b, [(a, 1 / 2)])] else [])) := by
  obtain ⟨h1, h2⟩ := rowsEdge (K := K) hang s hc a b hcor hone
  have hne : (s.sub 2).isEmpty = false := by
    cases h : s.sub 2
    · simp [corners, h] at hcor
    · rfl
  simp [assembleP1, hne, hsize, h1, h2]

/-- The choice made for one corner of a triangle. -/
def triangleRow (hang : Nat → Bool) (v n1 n2 : Nat) : List (Nat × List (Nat × K)) :=
  if hang v then
    if hang n1 && hang n2 then []
    else [(v, (if hang n1 then [] else [(n1, 1 / 2)]) ++ (if hang n2 then [] else [(n2, 1 / 2)]))]
  else []

theorem mem_triangleRow (hang : Nat → Bool) (v n1 n2 v' : Nat) (row : List (Nat × K)) (h : (v', row) ∈ triangleRow hang v n1 n2) :
    v' = v ∧ hang v = true ∧ row ≠ [] ∧ ∀ e ∈ row, (e.1 = n1 ∨ e.1 = n2) ∧ hang e.1 = false ∧ e.2 = 1 / 2 := by
  unfold triangleRow at h
  cases hv : hang v <;> cases h1 : hang n1 <;> cases h2 : hang n2 <;> simp [hv, h1, h2] at h <;>
    (obtain ⟨rfl, rfl⟩ := h; simp [h1, h2])

theorem exists_triangleRow (hang : Nat → Bool) (v n1 n2 t : Nat) (hv : hang v = true) (ht : t = n1 ∨ t = n2) (hh : hang t = false) :
    ∃ row : List (Nat × K), (v, row) ∈ triangleRow hang v n1 n2 ∧ (t, 1 / 2) ∈ row := by
  unfold triangleRow
  rcases ht with rfl | rfl
  · cases h2 : hang n2 <;> simp [hv, hh]
  · cases h1 : hang n1 <;> simp [hv, hh]

/-- The rows of a triangle with hanging nodes. -/
theorem rowsP1 (hang : Nat → Bool) (s : Side) (hc : Consistent 3 hang s) (hn : (corners 3 s).Nodup) (hsize : s.size = 4)
    (hlen : (s.sub 3).length = 3) :
    ∃ rows : List (Nat × List (Nat × K)), assembleP1 3 s = some rows ∧
      (∀ v row, (v, row) ∈ rows → hang v = true ∧ v ∈ corners 3 s ∧ row ≠ [] ∧
        ∀ e ∈ row, e.1 ∈ corners 3 s ∧ hang e.1 = false ∧ e.2 = 1 / 2) ∧
      ∀ v ∈ corners 3 s, hang v = true → ∀ t ∈ corners 3 s, hang t = false → ∃ row, (v, row) ∈ rows ∧ (t, 1 / 2) ∈ row := by
  match hm : s.sub 3, hlen with
  | [i0, i1, i2], _ =>
    have hcor : corners 3 s = [s.index 3 i0, s.index 3 i1, s.index 3 i2] := by simp [corners, hm]
    have c0 := hc i0 (by simp [hm])
    have c1 := hc i1 (by simp [hm])
    have c2 := hc i2 (by simp [hm])
    rw [hcor] at hn ⊢
    simp only [List.nodup_cons, List.mem_cons, List.not_mem_nil, not_or, or_false] at hn
    have n01 : ¬ s.index 3 i0 = s.index 3 i1 := hn.1.1
    have n02 : ¬ s.index 3 i0 = s.index 3 i2 := hn.1.2
    have n12 : ¬ s.index 3 i1 = s.index 3 i2 := hn.2.1
    have n10 : ¬ s.index 3 i1 = s.index 3 i0 := fun h => n01 h.symm
    have n20 : ¬ s.index 3 i2 = s.index 3 i0 := fun h => n02 h.symm
    have n21 : ¬ s.index 3 i2 = s.index 3 i1 := fun h => n12 h.symm
    have hrows : assembleP1 (K := K) 3 s = some (triangleRow hang (s.index 3 i0) (s.index 3 i1) (s.index 3 i2) ++
        (triangleRow hang (s.index 3 i1) (s.index 3 i2) (s.index 3 i0) ++
        triangleRow hang (s.index 3 i2) (s.index 3 i0) (s.index 3 i1))) := by
      have r0 : rowP1 (K := K) s [i0, i1, i2] 3 0 = triangleRow hang (s.index 3 i0) (s.index 3 i1) (s.index 3 i2) := by
        cases h0 : hang (s.index 3 i0) <;> cases h1 : hang (s.index 3 i1) <;> cases h2 : hang (s.index 3 i2) <;>
          simp [rowP1, triangleRow, c0, c1, c2, assign, h0, h1, h2, n01, n02, n12, n10, n20, n21]
      have r1 : rowP1 (K := K) s [i0, i1, i2] 3 1 = triangleRow hang (s.index 3 i1) (s.index 3 i2) (s.index 3 i0) := by
        cases h0 : hang (s.index 3 i0) <;> cases h1 : hang (s.index 3 i1) <;> cases h2 : hang (s.index 3 i2) <;>
          simp [rowP1, triangleRow, c0, c1, c2, assign, h0, h1, h2, n01, n02, n12, n10, n20, n21]
      have r2 : rowP1 (K := K) s [i0, i1, i2] 3 2 = triangleRow hang (s.index 3 i2) (s.index 3 i0) (s.index 3 i1) := by
        cases h0 : hang (s.index 3 i0) <;> cases h1 : hang (s.index 3 i1) <;> cases h2 : hang (s.index 3 i2) <;>
          simp [rowP1, triangleRow, c0, c1, c2, assign, h0, h1, h2, n01, n02, n12, n10, n20, n21]
      simp [assembleP1, hm, hsize, List.range_succ, r0, r1, r2]
    refine ⟨_, hrows, ?_, ?_⟩
    · intro v row h
      simp only [List.mem_append] at h
      rcases h with h | h | h <;> obtain ⟨rfl, hv, hne, hall⟩ := mem_triangleRow _ _ _ _ _ _ h <;>
        refine ⟨hv, by simp, hne, fun e he => ?_⟩ <;> obtain ⟨h1, h2, h3⟩ := hall e he <;>
        refine ⟨?_, h2, h3⟩ <;> rcases h1 with h1 | h1 <;> simp [h1]
    · intro v hv hh t ht hht
      simp only [List.mem_cons, List.not_mem_nil, or_false] at hv ht
      simp only [List.mem_append]
      rcases hv with rfl | rfl | rfl
      · obtain ⟨r, hr, hr'⟩ := exists_triangleRow (K := K) hang _ (s.index 3 i1) (s.index 3 i2) t hh
          (by rcases ht with rfl | h | h
              · simp [hh] at hht
              · exact Or.inl h
              · exact Or.inr h) hht
        exact ⟨r, Or.inl hr, hr'⟩
      · obtain ⟨r, hr, hr'⟩ := exists_triangleRow (K := K) hang _ (s.index 3 i2) (s.index 3 i0) t hh
          (by rcases ht with h | rfl | h
              · exact Or.inr h
              · simp [hh] at hht
              · exact Or.inl h) hht
        exact ⟨r, Or.inr (Or.inl hr), hr'⟩
      · obtain ⟨r, hr, hr'⟩ := exists_triangleRow (K := K) hang _ (s.index 3 i0) (s.index 3 i1) t hh
          (by rcases ht with h | h | rfl
              · exact Or.inl h
              · exact Or.inr h
              · simp [hh] at hht) hht
        exact ⟨r, Or.inr (Or.inr hr), hr'⟩

theorem mapM_some {A B : Type} (f : A → Option B) (g : A → B) (l : List A) (h : ∀ a ∈ l, f a = some (g a)) :
    l.mapM f = some (l.map g) := by
  induction l with
  | nil => rfl
  | cons a as ih => simp [List.mapM_cons, h a (by simp), ih fun b hb => h b (by simp [hb])]

theorem mem_collect (rows : List (List (Nat × List (Nat × K)))) (v : Nat) (row : List (Nat × K)) (h : (v, row) ∈ (collect rows).rows) :
    ∃ r ∈ rows, ∃ row', (v, row') ∈ r := by
  classical
  have hrun : collect rows = runEvents (events (rows.map fun r => ({ index := id, rows := r } : Contribution Nat Nat K))) Trafo.empty :=
    assemble_eq_run _ _
  have hinv := inv_run (events (rows.map fun r => ({ index := id, rows := r } : Contribution Nat Nat K)))
  rw [← hrun] at hinv
  obtain ⟨r, hr⟩ := (hinv.present v).1 ⟨row, (find?_iff_mem v row _ hinv.nodup).2 h⟩
  rw [mem_events] at hr
  obtain ⟨c, hc, d, row', hm, hk, -⟩ := hr
  obtain ⟨c', hc', rfl⟩ := List.mem_map.1 hc
  dsimp only [id] at hk
  subst hk
  exact ⟨c', hc', row', hm⟩

/-- The constraints of a sequence of intersections, from the ones of the individual intersections. -/
theorem constraintsOf_eq (assemble : Nat → Side → Option (List (Nat × List (Nat × K)))) (d : Nat) (hang : Nat → Bool)
    (faces : List (Side × Side × Bool)) (P : Side → List (Nat × List (Nat × K)) → Prop)
    (h : ∀ p ∈ faces, OneSided d hang p.1 p.2.1 ∧ ∃ rows, assemble d p.1 = some rows ∧ P p.1 rows) :
    ∃ rs, constraintsOf assemble d d faces = some (collect rs) ∧ (∀ r ∈ rs, ∃ p ∈ faces, P p.1 r) ∧
      ∀ p ∈ faces, ∃ r ∈ rs, P p.1 r := by
  classical
  have hg : ∀ p : Side × Side × Bool, ∃ rows, p ∈ faces → assemble d p.1 = some rows ∧ P p.1 rows := by
    intro p
    by_cases hp : p ∈ faces
    · obtain ⟨-, rows, hr⟩ := h p hp
      exact ⟨rows, fun _ => hr⟩
    · exact ⟨[], fun h => absurd h hp⟩
  choose g hg using hg
  refine ⟨faces.map g, ?_, ?_, ?_⟩
  · unfold constraintsOf
    rw [mapM_some _ g]
    · rfl
    · intro p hp
      obtain ⟨h1, h2⟩ := skeletonWith_fine assemble d d hang p.1 p.2.1 (h p hp).1
      split
      · rw [h1, (hg p hp).1]
      · rw [h2, (hg p hp).1]
  · intro r hr
    obtain ⟨p, hp, rfl⟩ := List.mem_map.1 hr
    exact ⟨p, hp, (hg p hp).2⟩
  · intro p hp
    exact ⟨g p, List.mem_map.2 ⟨p, hp, rfl⟩, (hg p hp).2⟩

theorem interpolates_of [CharZero K] (rs : List (List (Nat × List (Nat × K)))) (v : Nat) (S : List Nat) (hS : S.Nodup) (n : Nat)
    (hn : n ≠ 0) (hlen : S.length = n) (w : K) (hw : w = 1 / (n : K))
    (h1 : ∀ r ∈ rs, ∀ row, (v, row) ∈ r → row ≠ [] ∧ ∀ e ∈ row, e.1 ∈ S ∧ e.2 = w)
    (h2 : ∀ s ∈ S, ∃ r ∈ rs, ∃ row, (v, row) ∈ r ∧ ∃ x, (s, x) ∈ row) :
    Interpolates (collect rs) v S w := by
  have hne : S ≠ [] := by
    rintro rfl
    exact hn (by simpa using hlen.symm)
  obtain ⟨row, hrow, hp⟩ := collect_row rs v S hS hne w h1 h2
  refine ⟨row, hrow, hp, ?_⟩
  rw [(hp.map Prod.snd).sum_eq, List.map_map]
  have : (Prod.snd ∘ fun s => (s, w)) = fun _ : Nat => w := rfl
  rw [this, List.map_const', List.sum_replicate, hlen, hw, nsmul_eq_mul]
  have : (n : K) ≠ 0 := Nat.cast_ne_zero.2 hn
  field_simp

end

/-! ### The manager -/

theorem foldl_modify (f : NodeInfo → NodeInfo) (vs : List Nat) (v : Nat) : ∀ info : Info,
    (v ∉ vs → vs.foldl (fun (info : Info) w => info.modify w f) info v = info v) := by
  induction vs with
  | nil => intro info _; rfl
  | cons w ws ih =>
    intro info hv
    simp only [List.mem_cons, not_or] at hv
    rw [List.foldl_cons, ih _ hv.2]
    simp [Info.modify, hv.1]

/-- `addLevel` over a list of vertices. -/
theorem foldl_addLevel (level : Nat) (vs : List Nat) (v : Nat) : ∀ info : Info,
    let info' := vs.foldl (fun (info : Info) w => info.modify w fun n => n.addLevel level) info
    (∀ m, m ≤ (info' v).minimumLevel ↔ m ≤ (info v).minimumLevel ∧ (v ∈ vs → m ≤ level)) ∧
    (∀ m, (info' v).maximumLevel ≤ m ↔ (info v).maximumLevel ≤ m ∧ (v ∈ vs → level ≤ m)) ∧
    (info' v).minimumTouchingLevel = (info v).minimumTouchingLevel ∧ (info' v).isBoundary = (info v).isBoundary := by
  induction vs with
  | nil => intro info; simp
  | cons w ws ih =>
    intro info
    dsimp only
    rw [List.foldl_cons]
    obtain ⟨h1, h2, h3, h4⟩ := ih (info.modify w fun n => n.addLevel level)
    refine ⟨fun m => ?_, fun m => ?_, ?_, ?_⟩
    · rw [h1]
      by_cases hw : v = w
      · subst hw
        simp only [Info.modify, NodeInfo.addLevel, if_true, List.mem_cons, true_or, forall_const]
        by_cases hv : v ∈ ws <;> simp only [hv, forall_const, false_imp_iff, and_true] <;> omega
      · simp [Info.modify, hw]
    · rw [h2]
      by_cases hw : v = w
      · subst hw
        simp only [Info.modify, NodeInfo.addLevel, if_true, List.mem_cons, true_or, forall_const]
        by_cases hv : v ∈ ws <;> simp only [hv, forall_const, false_imp_iff, and_true] <;> omega
      · simp [Info.modify, hw]
    · rw [h3]
      by_cases hw : v = w <;> simp [Info.modify, hw, NodeInfo.addLevel]
    · rw [h4]
      by_cases hw : v = w <;> simp [Info.modify, hw, NodeInfo.addLevel]

/-- `addTouchingLevel` over a list of vertices. -/
theorem foldl_touch (level : Nat) (vs : List Nat) (v : Nat) : ∀ info : Info,
    let info' := vs.foldl (fun (info : Info) w => info.modify w fun n => n.addTouchingLevel level) info
    (∀ m, m ≤ (info' v).minimumTouchingLevel ↔ m ≤ (info v).minimumTouchingLevel ∧ (v ∈ vs → m ≤ level)) ∧
    (info' v).minimumLevel = (info v).minimumLevel ∧ (info' v).maximumLevel = (info v).maximumLevel ∧
      (info' v).isBoundary = (info v).isBoundary := by
  induction vs with
  | nil => intro info; simp
  | cons w ws ih =>
    intro info
    dsimp only
    rw [List.foldl_cons]
    obtain ⟨h1, h2, h3, h4⟩ := ih (info.modify w fun n => n.addTouchingLevel level)
    refine ⟨fun m => ?_, ?_, ?_, ?_⟩
    · rw [h1]
      by_cases hw : v = w
      · subst hw
        simp only [Info.modify, NodeInfo.addTouchingLevel, if_true, List.mem_cons, true_or, forall_const]
        by_cases hv : v ∈ ws <;> simp only [hv, forall_const, false_imp_iff, and_true] <;> omega
      · simp [Info.modify, hw]
    · rw [h2]
      by_cases hw : v = w <;> simp [Info.modify, hw, NodeInfo.addTouchingLevel]
    · rw [h3]
      by_cases hw : v = w <;> simp [Info.modify, hw, NodeInfo.addTouchingLevel]
    · rw [h4]
      by_cases hw : v = w <;> simp [Info.modify, hw, NodeInfo.addTouchingLevel]

/-- A boundary face. -/
theorem foldl_boundary (level : Nat) (vs : List (Nat × Bool)) (v : Nat) : ∀ info : Info,
    let info' := vs.foldl (fun (info : Info) p => info.modify p.1 fun n => { n with isBoundary := p.2 }.addTouchingLevel level) info
    (∀ m, m ≤ (info' v).minimumTouchingLevel ↔ m ≤ (info v).minimumTouchingLevel ∧ ((∃ b, (v, b) ∈ vs) → m ≤ level)) ∧
    (info' v).minimumLevel = (info v).minimumLevel ∧ (info' v).maximumLevel = (info v).maximumLevel ∧
      (∀ b, (∀ b', (v, b') ∈ vs → b' = b) → (info' v).isBoundary = if (∃ b', (v, b') ∈ vs) then b else (info v).isBoundary) := by
  classical
  induction vs with
  | nil => intro info; simp
  | cons w ws ih =>
    intro info
    dsimp only
    rw [List.foldl_cons]
    obtain ⟨h1, h2, h3, h4⟩ := ih (info.modify w.1 fun n => { n with isBoundary := w.2 }.addTouchingLevel level)
    refine ⟨fun m => ?_, ?_, ?_, ?_⟩
    · rw [h1]
      by_cases hw : v = w.1
      · have hex : ∃ b, (v, b) ∈ w :: ws := ⟨w.2, by simp [hw]⟩
        simp only [hex, forall_const]
        simp only [Info.modify, NodeInfo.addTouchingLevel, hw, if_true]
        by_cases hv : ∃ b, (w.1, b) ∈ ws <;> simp only [hv, forall_const, false_imp_iff, and_true] <;> omega
      · have hex : (∃ b, (v, b) ∈ w :: ws) ↔ ∃ b, (v, b) ∈ ws := by
          refine exists_congr fun b => ?_
          rw [List.mem_cons]
          refine ⟨fun h => h.resolve_left ?_, Or.inr⟩
          rintro rfl
          exact hw rfl
        rw [hex]
        simp [Info.modify, hw]
    · rw [h2]
      by_cases hw : v = w.1 <;> simp [Info.modify, hw, NodeInfo.addTouchingLevel]
    · rw [h3]
      by_cases hw : v = w.1 <;> simp [Info.modify, hw, NodeInfo.addTouchingLevel]
    · intro b hb
      have h := h4 b fun b' hb' => hb b' (by simp [hb'])
      rw [h]
      by_cases hw : v = w.1
      · have hex : ∃ b, (v, b) ∈ w :: ws := ⟨w.2, by simp [hw]⟩
        rw [if_pos hex]
        split
        · rfl
        · have := hb w.2 (by simp [hw])
          simp [Info.modify, hw, NodeInfo.addTouchingLevel, this]
      · have hex : (∃ b, (v, b) ∈ w :: ws) ↔ ∃ b, (v, b) ∈ ws := by
          refine exists_congr fun b => ?_
          rw [List.mem_cons]
          refine ⟨fun h => h.resolve_left ?_, Or.inr⟩
          rintro rfl
          exact hw rfl
        simp only [hex]
        simp [Info.modify, hw]

/-- The levels by which a face touches a vertex. -/
def Touches (level : Nat) (f : Face) (v l : Nat) : Prop :=
  match f.kind with
  | .boundary ds => (∃ b, (v, b) ∈ f.vertices.zip ds) ∧ l = level
  | .conforming => False
  | .nonconforming fLevel => fLevel ≤ level ∧ v ∈ f.vertices ∧ l = fLevel

/-- The flags which the boundary faces give to a vertex. -/
def Flags (f : Face) (v : Nat) (b : Bool) : Prop :=
  match f.kind with
  | .boundary ds => (v, b) ∈ f.vertices.zip ds
  | _ => False

open Classical in
theorem visitFace_spec (level : Nat) (f : Face) (v : Nat) (info : Info) :
    (∀ m, m ≤ (visitFace level info f v).minimumTouchingLevel ↔
      m ≤ (info v).minimumTouchingLevel ∧ ∀ l, Touches level f v l → m ≤ l) ∧
    (visitFace level info f v).minimumLevel = (info v).minimumLevel ∧
    (visitFace level info f v).maximumLevel = (info v).maximumLevel ∧
    (∀ b, (∀ b', Flags f v b' → b' = b) →
      (visitFace level info f v).isBoundary = if (∃ b', Flags f v b') then b else (info v).isBoundary) := by
  cases hk : f.kind with
  | boundary ds =>
    obtain ⟨h1, h2, h3, h4⟩ := foldl_boundary level (f.vertices.zip ds) v info
    simp only [visitFace, hk, Touches, Flags]
    refine ⟨fun m => ?_, h2, h3, fun b hb => ?_⟩
    · rw [h1]
      refine and_congr_right fun _ => ⟨?_, ?_⟩
      · rintro h l ⟨h', rfl⟩
        exact h h'
      · intro h h'
        exact h level ⟨h', rfl⟩
    · exact h4 b hb
  | conforming => simp [visitFace, hk, Touches, Flags]
  | nonconforming fl =>
    simp only [visitFace, hk, Touches, Flags]
    by_cases hl : level < fl
    · simp only [hl, if_true]
      refine ⟨fun m => ?_, by simp⟩
      refine ⟨fun h => ⟨h, fun l hl' => by omega⟩, fun h => h.1⟩
    · simp only [hl, if_false]
      obtain ⟨h1, h2, h3, h4⟩ := foldl_touch fl f.vertices v info
      refine ⟨fun m => ?_, h2, h3, fun b _ => by simpa using h4⟩
      rw [h1]
      refine and_congr_right fun _ => ⟨?_, ?_⟩
      · rintro h l ⟨_, h', rfl⟩
        exact h h'
      · intro h h'
        exact h fl ⟨by omega, h', rfl⟩

open Classical in
theorem visitFaces_spec (level : Nat) (v : Nat) (fs : List Face) : ∀ info : Info,
    (∀ m, m ≤ (fs.foldl (visitFace level) info v).minimumTouchingLevel ↔
      m ≤ (info v).minimumTouchingLevel ∧ ∀ f ∈ fs, ∀ l, Touches level f v l → m ≤ l) ∧
    (fs.foldl (visitFace level) info v).minimumLevel = (info v).minimumLevel ∧
    (fs.foldl (visitFace level) info v).maximumLevel = (info v).maximumLevel ∧
    (∀ b, (∀ f ∈ fs, ∀ b', Flags f v b' → b' = b) →
      (fs.foldl (visitFace level) info v).isBoundary = if (∃ f ∈ fs, ∃ b', Flags f v b') then b else (info v).isBoundary) := by
  induction fs with
  | nil => intro info; simp
  | cons f fs ih =>
    intro info
    obtain ⟨h1, h2, h3, h4⟩ := visitFace_spec level f v info
    obtain ⟨i1, i2, i3, i4⟩ := ih (visitFace level info f)
    simp only [List.foldl_cons]
    refine ⟨fun m => ?_, i2.trans h2, i3.trans h3, fun b hb => ?_⟩
    · rw [i1, h1, List.forall_mem_cons, and_assoc]
    · rw [i4 b fun f' hf' => hb f' (by simp [hf']), h4 b (hb f (by simp))]
      simp only [List.exists_mem_cons_iff]
      by_cases ha : ∃ f ∈ fs, ∃ b', Flags f v b' <;> by_cases hb : ∃ b', Flags f v b' <;> simp [ha, hb]

open Classical in
theorem analyze_spec (v : Nat) (cs : List Cell) : ∀ info : Info,
    (∀ m, m ≤ (cs.foldl visitCell info v).minimumTouchingLevel ↔
      m ≤ (info v).minimumTouchingLevel ∧ ∀ c ∈ cs, ∀ f ∈ c.faces, ∀ l, Touches c.level f v l → m ≤ l) ∧
    (∀ m, m ≤ (cs.foldl visitCell info v).minimumLevel ↔
      m ≤ (info v).minimumLevel ∧ ∀ c ∈ cs, v ∈ c.vertices → m ≤ c.level) ∧
    (∀ m, (cs.foldl visitCell info v).maximumLevel ≤ m ↔
      (info v).maximumLevel ≤ m ∧ ∀ c ∈ cs, v ∈ c.vertices → c.level ≤ m) ∧
    (∀ b, (∀ c ∈ cs, ∀ f ∈ c.faces, ∀ b', Flags f v b' → b' = b) →
      (cs.foldl visitCell info v).isBoundary = if (∃ c ∈ cs, ∃ f ∈ c.faces, ∃ b', Flags f v b') then b else (info v).isBoundary) := by
  induction cs with
  | nil => intro info; simp
  | cons c cs ih =>
    intro info
    obtain ⟨a1, a2, a3, a4⟩ := foldl_addLevel c.level c.vertices v info
    obtain ⟨f1, f2, f3, f4⟩ := visitFaces_spec c.level v c.faces
      (c.vertices.foldl (fun info v => info.modify v fun n => n.addLevel c.level) info)
    obtain ⟨i1, i2, i3, i4⟩ := ih (visitCell info c)
    rw [List.foldl_cons]
    have hv : visitCell info c = c.faces.foldl (visitFace c.level)
      (c.vertices.foldl (fun info v => info.modify v fun n => n.addLevel c.level) info) := rfl
    rw [← hv] at f1 f2 f3 f4
    refine ⟨fun m => ?_, fun m => ?_, fun m => ?_, fun b hb => ?_⟩
    · rw [i1, f1, a3, List.forall_mem_cons, and_assoc]
    · rw [i2, f2, a1, List.forall_mem_cons, and_assoc]
    · rw [i3, f3, a2, List.forall_mem_cons, and_assoc]
    · rw [i4 b fun c' hc' => hb c' (by simp [hc']), f4 b (hb c (by simp)), a4]
      rw [if_congr (List.exists_mem_cons_iff (p := fun c => ∃ f ∈ c.faces, ∃ b', Flags f v b') c cs) rfl rfl]
      by_cases hP : ∃ c ∈ cs, ∃ f ∈ c.faces, ∃ b', Flags f v b'
      · rw [if_pos hP, if_pos (Or.inr hP)]
      · by_cases hQ : ∃ f ∈ c.faces, ∃ b', Flags f v b'
        · rw [if_neg hP, if_pos hQ, if_pos (Or.inl hQ)]
        · rw [if_neg hP, if_neg hQ, if_neg (fun h => h.elim hQ hP)]

theorem markCells_nil (info : Info) (extra : Cell → Bool) (cs : List Cell) : ∀ marked,
    (markCells info extra cs marked = [] ↔ marked = [] ∧ ∀ c ∈ cs, needsRefinement info c = false ∧ extra c = false) := by
  induction cs with
  | nil => intro marked; simp [markCells]
  | cons c cs ih =>
    intro marked
    simp only [markCells]
    rw [ih]
    cases hn : needsRefinement info c <;> cases he : extra c <;> cases marked <;> simp [hn, he]

theorem markCells_cubes (info : Info) (cs : List Cell) : ∀ marked,
    markCells info (fun _ => false) cs marked = marked ++ cs.filter (needsRefinement info) := by
  induction cs with
  | nil => intro marked; simp [markCells]
  | cons c cs ih =>
    intro marked
    simp only [markCells, Bool.and_false, Bool.false_eq_true, if_false]
    rw [ih]
    cases hn : needsRefinement info c <;> simp [hn]

end Verif.HangingNode
