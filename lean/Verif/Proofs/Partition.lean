import Verif.Spec.Partition
import Mathlib.Data.List.Nodup
import Mathlib.Data.List.Basic
import Mathlib.Data.List.Perm.Subperm
/-
Helper lemmas about partitions (C33 - C36).
-/
namespace Verif.Partition

open Spec

/-! ### Splitting -/

theorem splitLoop_spec {α : Type} (k chunk r : Nat) (rest : List α) (hl : rest.length = (k + 1) * chunk + r) (hr : r ≤ k) :
    ∃ ps, splitLoop k chunk r rest = some ps ∧ ps.length = k + 1 ∧ ps.flatten = rest ∧
      ∀ p ∈ ps, p.length = chunk ∨ p.length = chunk + 1 := by
  induction k generalizing r rest with
  | zero =>
    refine ⟨[rest], rfl, rfl, by simp, ?_⟩
    intro p hp
    rw [List.mem_singleton.1 hp]
    left; omega
  | succ k ih =>
    have hmul : (k + 1 + 1) * chunk = (k + 1) * chunk + chunk := by rw [Nat.add_mul (k + 1) 1, Nat.one_mul]
    simp only [splitLoop]
    by_cases h0 : r = 0
    · subst h0
      simp only [ne_eq, not_true_eq_false, if_false, Nat.add_zero]
      rw [if_neg (by omega)]
      obtain ⟨ps, h1, h2, h3, h4⟩ := ih 0 (rest.drop chunk) (by rw [List.length_drop]; omega) (Nat.zero_le _)
      rw [h1]
      refine ⟨_, rfl, by simp [h2], by simp [h3], ?_⟩
      intro p hp
      rcases List.mem_cons.1 hp with rfl | hp
      · left; rw [List.length_take]; omega
      · exact h4 p hp
    · simp only [ne_eq, h0, not_false_eq_true, if_true]
      rw [if_neg (by omega)]
      obtain ⟨ps, h1, h2, h3, h4⟩ := ih (r - 1) (rest.drop (chunk + 1)) (by rw [List.length_drop]; omega) (by omega)
      rw [h1]
      refine ⟨_, rfl, by simp [h2], by simp [h3], ?_⟩
      intro p hp
      rcases List.mem_cons.1 hp with rfl | hp
      · right; rw [List.length_take]; omega
      · exact h4 p hp

/-! ### Rows -/

theorem mem_rowAdd (l : List Nat) (x y : Nat) : y ∈ rowAdd l x ↔ y = x ∨ y ∈ l := by
  induction l with
  | nil => simp [rowAdd]
  | cons a l ih =>
    unfold rowAdd
    split
    · rename_i h; subst h; simp
    · split
      · simp
      · simp [ih]; exact or_left_comm

theorem nodup_rowAdd (l : List Nat) (x : Nat) (h : l.Pairwise (· < ·)) : (rowAdd l x).Pairwise (· < ·) := by
  induction l with
  | nil => simp [rowAdd]
  | cons a l ih =>
    rw [List.pairwise_cons] at h
    unfold rowAdd
    split
    · exact List.pairwise_cons.2 h
    · split
      · rename_i h2
        refine List.pairwise_cons.2 ⟨?_, List.pairwise_cons.2 h⟩
        intro y hy
        rcases List.mem_cons.1 hy with rfl | hy
        · exact h2
        · exact Nat.lt_trans h2 (h.1 y hy)
      · refine List.pairwise_cons.2 ⟨?_, ih h.2⟩
        intro y hy
        rcases (mem_rowAdd l x y).1 hy with rfl | hy
        · omega
        · exact h.1 y hy

theorem upd_self {α : Type} (f : Nat → α) (i : Nat) (a : α) : upd f i a i = a := if_pos rfl
theorem upd_ne {α : Type} (f : Nat → α) {i j : Nat} (a : α) (h : j ≠ i) : upd f i a j = f j := if_neg h

/-! ### Visits of sub-entities -/

/-- The sub-entities visited from an element, in the order of the visits. -/
def visitsOf (g : Grid) : Nat → Nat → List Nat
  | 0, e => g.sub e
  | d + 1, e => g.sub e ++ (g.nbr e).flatMap fun o => visitsOf g d o

theorem mem_visitsOf (g : Grid) (d e s : Nat) : s ∈ visitsOf g d e ↔ ∃ e', Within g d e e' ∧ s ∈ g.sub e' := by
  induction d generalizing e with
  | zero =>
    constructor
    · intro h; exact ⟨e, .here _ _, h⟩
    · rintro ⟨e', h, hs⟩
      cases h
      exact hs
  | succ d ih =>
    simp only [visitsOf, List.mem_append, List.mem_flatMap]
    constructor
    · rintro (h | ⟨o, ho, h⟩)
      · exact ⟨e, .here _ _, h⟩
      · obtain ⟨e', h1, h2⟩ := (ih o).1 h
        exact ⟨e', .step ho h1, h2⟩
    · rintro ⟨e', h, hs⟩
      cases h with
      | here => exact Or.inl hs
      | step ho h => exact Or.inr ⟨_, ho, (ih _).2 ⟨e', h, hs⟩⟩

theorem markOverlap_eq (g : Grid) (id d : Nat) (st : Links) (e : Nat) :
    markOverlap g id d st e = (visitsOf g d e).foldl (visitSub id) st := by
  induction d generalizing e st with
  | zero => rfl
  | succ d ih =>
    simp only [markOverlap, visitsOf, List.foldl_append, markEntity]
    generalize (g.sub e).foldl (visitSub id) st = st0
    induction g.nbr e generalizing st0 with
    | nil => rfl
    | cons o os ih2 => rw [List.foldl_cons, List.flatMap_cons, List.foldl_append, ih, ih2]

/-- All visits of all patches, as pairs of patch number and sub-entity. -/
def allVisits (g : Grid) (d : Nat) : Nat → List (List Nat) → List (Nat × Nat)
  | _, [] => []
  | id, p :: ps => (p.flatMap fun e => (visitsOf g d e).map fun s => (id, s)) ++ allVisits g d (id + 1) ps

def visit (st : Links) (v : Nat × Nat) : Links := visitSub v.1 st v.2

theorem markPatches_eq (g : Grid) (d id : Nat) (ps : List (List Nat)) (st : Links) :
    markPatches g d id ps st = (allVisits g d id ps).foldl visit st := by
  induction ps generalizing id st with
  | nil => rfl
  | cons p ps ih =>
    simp only [markPatches, allVisits, List.foldl_append, ih]
    congr 1
    induction p generalizing st with
    | nil => rfl
    | cons e p ih2 =>
      rw [List.foldl_cons, ih2, List.flatMap_cons, List.foldl_append, markOverlap_eq]
      congr 1
      generalize visitsOf g d e = vs
      induction vs generalizing st with
      | nil => rfl
      | cons s vs ih3 => simp only [List.foldl_cons, List.map_cons]; exact ih3 _

theorem mem_allVisits (g : Grid) (d id : Nat) (ps : List (List Nat)) (i s : Nat) :
    (i, s) ∈ allVisits g d id ps ↔ ∃ k p, ps[k]? = some p ∧ i = id + k ∧ InHalo g d p s := by
  induction ps generalizing id with
  | nil => simp [allVisits]
  | cons p ps ih =>
    simp only [allVisits, List.mem_append, ih, List.mem_flatMap, List.mem_map, mem_visitsOf, Prod.mk.injEq]
    constructor
    · rintro (⟨e, he, s', ⟨e', h1, h2⟩, rfl, rfl⟩ | ⟨k, q, hk, rfl, h⟩)
      · exact ⟨0, p, rfl, rfl, e, he, e', h1, h2⟩
      · exact ⟨k + 1, q, by simpa using hk, by omega, h⟩
    · rintro ⟨k, q, hk, rfl, h⟩
      cases k with
      | zero =>
        obtain rfl : p = q := by simpa using hk
        obtain ⟨e, he, e', h1, h2⟩ := h
        exact Or.inl ⟨e, he, s, ⟨e', h1, h2⟩, rfl, rfl⟩
      | succ k => exact Or.inr ⟨k, q, by simpa using hk, by omega, h⟩

/-- What the tables mean after a list of visits. -/
structure VisitInv (V : List (Nat × Nat)) (st : Links) : Prop where
  owners : ∀ a s, a ∈ st.owners s ↔ (a, s) ∈ V
  sound : ∀ a b, b ∈ st.links a → ∃ s, (a, s) ∈ V ∧ (b, s) ∈ V
  complete : ∀ a b s, a ≠ b → (a, s) ∈ V → (b, s) ∈ V → b ∈ st.links a
  symm : ∀ a b, b ∈ st.links a → a ∈ st.links b
  sorted : ∀ a, (st.links a).Pairwise (· < ·)

theorem links_fold (id : Nat) (os : List Nat) (l : Nat → List Nat) (a b : Nat) :
    b ∈ (os.foldl (fun l owner =>
        let l := upd l owner (rowAdd (l owner) id)
        upd l id (rowAdd (l id) owner)) l) a ↔ b ∈ l a ∨ (b = id ∧ a ∈ os) ∨ (a = id ∧ b ∈ os) := by
  induction os generalizing l with
  | nil => simp
  | cons o os ih =>
    rw [List.foldl_cons, ih]
    have : b ∈ upd (upd l o (rowAdd (l o) id)) id (rowAdd ((upd l o (rowAdd (l o) id)) id) o) a ↔
        b ∈ l a ∨ (b = id ∧ a = o) ∨ (a = id ∧ b = o) := by
      by_cases ha : a = id
      · subst ha
        rw [upd_self, mem_rowAdd]
        by_cases ho : a = o
        · subst ho; rw [upd_self, mem_rowAdd]; grind
        · rw [upd_ne _ _ ho]; grind
      · rw [upd_ne _ _ ha]
        by_cases ho : a = o
        · subst ho; rw [upd_self, mem_rowAdd]; grind
        · rw [upd_ne _ _ ho]; grind
    simp only [List.mem_cons]
    rw [this]
    grind

theorem links_fold_sorted (id : Nat) (os : List Nat) (l : Nat → List Nat) (h : ∀ a, (l a).Pairwise (· < ·)) (a : Nat) :
    ((os.foldl (fun l owner =>
        let l := upd l owner (rowAdd (l owner) id)
        upd l id (rowAdd (l id) owner)) l) a).Pairwise (· < ·) := by
  induction os generalizing l with
  | nil => exact h a
  | cons o os ih =>
    rw [List.foldl_cons]
    refine ih _ ?_
    have h1 : ∀ a, (upd l o (rowAdd (l o) id) a).Pairwise (· < ·) := by
      intro a
      unfold upd
      split
      · exact nodup_rowAdd _ _ (h _)
      · exact h a
    intro a
    by_cases ha : a = id
    · subst ha; rw [upd_self]; exact nodup_rowAdd _ _ (h1 _)
    · rw [upd_ne _ _ ha]; exact h1 a

theorem VisitInv.step {V : List (Nat × Nat)} {st : Links} (h : VisitInv V st) (v : Nat × Nat) : VisitInv (V ++ [v]) (visit st v) := by
  obtain ⟨id, s0⟩ := v
  have hL : ∀ a b, b ∈ (visit st (id, s0)).links a ↔
      b ∈ st.links a ∨ (b = id ∧ a ∈ st.owners s0) ∨ (a = id ∧ b ∈ st.owners s0) :=
    fun a b => links_fold id (st.owners s0) st.links a b
  constructor
  · intro a s
    show a ∈ upd st.owners s0 (rowAdd (st.owners s0) id) s ↔ _
    by_cases hs : s = s0
    · subst hs
      rw [upd_self, mem_rowAdd, h.owners]; simp [or_comm]
    · rw [upd_ne _ _ hs, h.owners]; simp [hs]
  · intro a b hb
    rcases (hL a b).1 hb with hb | ⟨rfl, ha⟩ | ⟨rfl, hb'⟩
    · obtain ⟨s, h1, h2⟩ := h.sound a b hb
      exact ⟨s, by simp [h1], by simp [h2]⟩
    · exact ⟨s0, by simp [(h.owners a s0).1 ha], by simp⟩
    · exact ⟨s0, by simp, by simp [(h.owners b s0).1 hb']⟩
  · intro a b s hne ha hb
    rw [hL]
    simp only [List.mem_append, List.mem_singleton, Prod.mk.injEq] at ha hb
    rcases ha with ha | ⟨rfl, rfl⟩
    · rcases hb with hb | ⟨rfl, rfl⟩
      · exact Or.inl (h.complete a b s hne ha hb)
      · exact Or.inr (Or.inl ⟨rfl, (h.owners _ _).2 ha⟩)
    · rcases hb with hb | ⟨rfl, _⟩
      · exact Or.inr (Or.inr ⟨rfl, (h.owners _ _).2 hb⟩)
      · exact absurd rfl hne
  · intro a b hb
    rw [hL] at hb ⊢
    rcases hb with hb | ⟨h1, h2⟩ | ⟨h1, h2⟩
    · exact Or.inl (h.symm a b hb)
    · exact Or.inr (Or.inr ⟨h1, h2⟩)
    · exact Or.inr (Or.inl ⟨h1, h2⟩)
  · intro a
    exact links_fold_sorted id (st.owners s0) st.links h.sorted a

theorem visitInv_fold (W V : List (Nat × Nat)) (st : Links) (h : VisitInv V st) : VisitInv (V ++ W) (W.foldl visit st) := by
  induction W generalizing V st with
  | nil => simpa using h
  | cons w W ih =>
    have := ih (V ++ [w]) (visit st w) (h.step w)
    simpa using this

theorem makeGraph_inv (g : Grid) (d : Nat) (patches : List (List Nat)) :
    VisitInv (allVisits g d 0 patches) (markPatches g d 0 patches ⟨fun _ => [], fun _ => []⟩) := by
  rw [markPatches_eq]
  have h0 : VisitInv [] ⟨fun _ => [], fun _ => []⟩ := by
    constructor <;> simp
  simpa using visitInv_fold (allVisits g d 0 patches) [] _ h0

theorem makeGraph_symmetric (g : Grid) (d : Nat) (patches : List (List Nat)) : Symmetric (makeGraph g d patches) := by
  have h := makeGraph_inv g d patches
  refine ⟨?_, fun v w hw => h.symm v w hw, fun v => (h.sorted v).imp fun hlt => Nat.ne_of_lt hlt⟩
  intro v w hw
  obtain ⟨s, h1, h2⟩ := h.sound v w hw
  rw [mem_allVisits] at h1 h2
  obtain ⟨k, p, hk, rfl, _⟩ := h1
  obtain ⟨k', p', hk', rfl, _⟩ := h2
  obtain ⟨hk1, _⟩ := List.getElem?_eq_some_iff.1 hk
  obtain ⟨hk2, _⟩ := List.getElem?_eq_some_iff.1 hk'
  show 0 + k < patches.length ∧ 0 + k' < patches.length
  omega

theorem makeGraph_connected (g : Grid) (d : Nat) (patches : List (List Nat)) (i j : Nat) (hij : i ≠ j) :
    j ∈ (makeGraph g d patches).row i ↔ Connected g d patches i j := by
  have h := makeGraph_inv g d patches
  constructor
  · intro hj
    obtain ⟨s, h1, h2⟩ := h.sound i j hj
    rw [mem_allVisits] at h1 h2
    obtain ⟨k, p, hk, rfl, hp⟩ := h1
    obtain ⟨k', p', hk', rfl, hp'⟩ := h2
    rw [Nat.zero_add, Nat.zero_add]
    exact ⟨p, p', hk, hk', s, hp, hp'⟩
  · rintro ⟨p, q, hp, hq, s, h1, h2⟩
    refine h.complete i j s hij ?_ ?_
    · rw [mem_allVisits]; exact ⟨i, p, hp, by omega, h1⟩
    · rw [mem_allVisits]; exact ⟨j, q, hq, by omega, h2⟩

/-! ### The queue -/

theorem mem_queueInsert (a b : Entry) (q : List Entry) : b ∈ queueInsert a q ↔ b = a ∨ b ∈ q := by
  induction q with
  | nil => simp [queueInsert]
  | cons c q ih =>
    unfold queueInsert
    split
    · rename_i h; subst h; simp
    · split
      · simp
      · simp [ih]; exact or_left_comm

theorem nodup_queueInsert (a : Entry) (q : List Entry) (h : q.Nodup) (ha : a ∉ q) : (queueInsert a q).Nodup := by
  induction q with
  | nil => simp [queueInsert]
  | cons c q ih =>
    have h' := List.nodup_cons.1 h
    unfold queueInsert
    split
    · exact h
    · rename_i hne
      split
      · exact List.nodup_cons.2 ⟨ha, h⟩
      · refine List.nodup_cons.2 ⟨?_, ih h'.2 (fun hq => ha (List.mem_cons_of_mem _ hq))⟩
        rw [mem_queueInsert]
        rintro (rfl | hc)
        · exact hne rfl
        · exact h'.1 hc

theorem length_queueInsert (a : Entry) (q : List Entry) (ha : a ∉ q) : (queueInsert a q).length = q.length + 1 := by
  induction q with
  | nil => simp [queueInsert]
  | cons c q ih =>
    unfold queueInsert
    split
    · rename_i h; exact absurd (by simp [h]) ha
    · split
      · rfl
      · rw [List.length_cons, ih (fun hq => ha (List.mem_cons_of_mem _ hq))]; rfl

/-- The queue holds exactly the uncolored vertices, with their present saturation and degree. -/
structure QueueInv (n : Nat) (st : ColorState) : Prop where
  nodup : st.queue.Nodup
  mem : ∀ t : Entry, t ∈ st.queue ↔
    t.2.2 < n ∧ st.color t.2.2 = none ∧ t.1 = (st.adjacent t.2.2).length ∧ t.2.1 = st.degree t.2.2

theorem updateQueue_spec (n c : Nat) (ws : List Nat) (st : ColorState) (h : QueueInv n st) (hw : ∀ w ∈ ws, w < n) :
    ∃ st', updateQueue c ws st = .ok st' ∧ QueueInv n st' ∧ st'.color = st.color ∧ st'.used = st.used ∧
      st'.maxColor = st.maxColor ∧ st'.queue.length = st.queue.length := by
  induction ws generalizing st with
  | nil => exact ⟨st, rfl, h, rfl, rfl, rfl, rfl⟩
  | cons w ws ih =>
    have hws : ∀ w ∈ ws, w < n := fun w' hw' => hw w' (List.mem_cons_of_mem _ hw')
    simp only [updateQueue]
    cases hc : st.color w with
    | some _ => exact ih st h hws
    | none =>
      dsimp only
      have hkey : (((st.adjacent w).length, st.degree w, w) : Entry) ∈ st.queue :=
        (h.mem _).2 ⟨hw w (List.mem_cons_self ..), hc, rfl, rfl⟩
      rw [if_pos hkey]
      have hnot : ∀ a b, ((a, b, w) : Entry) ∉ st.queue.erase ((st.adjacent w).length, st.degree w, w) := by
        intro a b hab
        rw [h.nodup.mem_erase_iff] at hab
        obtain ⟨h1, h2⟩ := hab
        obtain ⟨_, _, h3, h4⟩ := (h.mem _).1 h2
        dsimp only at h3 h4
        subst h3 h4
        exact h1 rfl
      have hQ : QueueInv n
          { st with adjacent := upd st.adjacent w (rowAdd (st.adjacent w) c), degree := upd st.degree w ((st.degree w + 255) % 256),
                    queue := queueInsert ((rowAdd (st.adjacent w) c).length, (st.degree w + 255) % 256, w)
                      (st.queue.erase ((st.adjacent w).length, st.degree w, w)) } := by
        refine ⟨nodup_queueInsert _ _ (h.nodup.erase _) (hnot _ _), ?_⟩
        rintro ⟨a, b, v⟩
        show (a, b, v) ∈ queueInsert _ _ ↔ _
        rw [mem_queueInsert, h.nodup.mem_erase_iff, h.mem]
        dsimp only
        by_cases hv : v = w
        · subst hv
          rw [upd_self, upd_self]
          simp only [Prod.mk.injEq, and_true]
          constructor
          · rintro (⟨rfl, rfl⟩ | ⟨h1, _, _, h2, h3⟩)
            · exact ⟨hw v (List.mem_cons_self ..), hc, rfl, rfl⟩
            · exact absurd (by rw [h2, h3]) h1
          · rintro ⟨_, _, rfl, rfl⟩
            exact Or.inl ⟨rfl, rfl⟩
        · rw [upd_ne _ _ hv, upd_ne _ _ hv]
          constructor
          · rintro (h1 | ⟨_, h1⟩)
            · simp [hv] at h1
            · exact h1
          · intro h1
            refine Or.inr ⟨by simp [hv], h1⟩
      obtain ⟨st', h1, h2, h3, h4, h5, h6⟩ := ih _ hQ hws
      refine ⟨st', h1, h2, h3, h4, h5, ?_⟩
      rw [h6]
      show (queueInsert _ _).length = _
      rw [length_queueInsert _ _ (hnot _ _), List.length_erase_of_mem hkey]
      have : 0 < st.queue.length := List.length_pos_of_mem hkey
      omega

/-! ### The lowest color -/

theorem setUsed_true (color : Nat → Option Nat) (ws : List Nat) (u : Nat → Bool) (c : Nat) :
    setUsed color true ws u c = true ↔ u c = true ∨ ∃ w ∈ ws, color w = some c := by
  unfold setUsed
  induction ws generalizing u with
  | nil => simp
  | cons w ws ih =>
    rw [List.foldl_cons, ih]
    cases hw : color w with
    | none => simp [hw]
    | some d =>
      dsimp only
      by_cases hd : c = d
      · subst hd; rw [upd_self]; simp [hw]
      · rw [upd_ne _ _ hd]
        simp [hw, Ne.symm hd]

theorem setUsed_false (color : Nat → Option Nat) (ws : List Nat) (u : Nat → Bool) (c : Nat) :
    setUsed color false ws u c = true ↔ u c = true ∧ ¬ ∃ w ∈ ws, color w = some c := by
  unfold setUsed
  induction ws generalizing u with
  | nil => simp
  | cons w ws ih =>
    rw [List.foldl_cons, ih]
    cases hw : color w with
    | none => simp [hw]
    | some d =>
      dsimp only
      by_cases hd : c = d
      · subst hd; rw [upd_self]; simp [hw]
      · rw [upd_ne _ _ hd]
        simp [hw, Ne.symm hd]

theorem lowestColor_spec (used : Nat → Bool) (k c : Nat) :
    c ≤ lowestColor used k c ∧ (∀ x, c ≤ x → x < lowestColor used k c → used x = true) ∧
    (used (lowestColor used k c) = false ∨ lowestColor used k c = c + k) := by
  induction k generalizing c with
  | zero => exact ⟨Nat.le_refl _, fun x h1 h2 => absurd h2 (by simp only [lowestColor]; omega), Or.inr rfl⟩
  | succ k ih =>
    simp only [lowestColor]
    by_cases hu : used c = true
    · rw [if_pos hu]
      obtain ⟨h1, h2, h3⟩ := ih (c + 1)
      refine ⟨by omega, ?_, ?_⟩
      · intro x hx1 hx2
        by_cases hx : x = c
        · rw [hx]; exact hu
        · exact h2 x (by omega) hx2
      · rcases h3 with h3 | h3
        · exact Or.inl h3
        · exact Or.inr (by omega)
    · rw [if_neg hu]
      exact ⟨Nat.le_refl _, fun x h1 h2 => absurd h2 (by omega), Or.inl (by simpa using hu)⟩

/-- What holds before each iteration of the main loop. -/
structure ColorInv (g : Graph) (st : ColorState) : Prop where
  used : ∀ c, st.used c = false
  proper : ∀ v w c, w ∈ g.row v → v ≠ w → st.color v = some c → st.color w ≠ some c
  bound : ∀ v c, st.color v = some c → c ≤ st.maxColor ∧ c ≤ degree g v
  attained : st.maxColor = 0 ∨ ∃ v, v < g.size ∧ st.color v = some st.maxColor

theorem nodup_le_length {l m : List Nat} (h : l.Nodup) (hs : ∀ x ∈ l, x ∈ m) : l.length ≤ m.length :=
  (List.subperm_of_subset h hs).length_le

theorem degree_lt (g : Graph) (hg : Symmetric g) (v : Nat) (hv : v < g.size) : degree g v < g.size := by
  have h1 : (v :: (g.row v).filter (· ≠ v)).Nodup := by
    refine List.nodup_cons.2 ⟨by simp, (hg.nodup v).filter _⟩
  have h2 : (v :: (g.row v).filter (· ≠ v)).length ≤ (List.range g.size).length := by
    refine nodup_le_length h1 ?_
    intro x hx
    rw [List.mem_range]
    rcases List.mem_cons.1 hx with rfl | hx
    · exact hv
    · exact (hg.lt v x (List.mem_of_mem_filter hx)).2
  rw [List.length_cons, List.length_range] at h2
  exact h2

theorem colorNode_spec (g : Graph) (hg : Symmetric g) (node : Nat) (hn : node < g.size) (a b : Nat) (q : List Entry) (st : ColorState)
    (hst : st.queue = (a, b, node) :: q) (hc : st.color node = none) (hq : QueueInv g.size st) (hi : ColorInv g st) :
    ∃ st', colorNode g node { st with queue := q } = .ok st' ∧ QueueInv g.size st' ∧ ColorInv g st' ∧ st'.queue.length = q.length := by
  have hu1 : ∀ c, setUsed st.color true (g.row node) st.used c = true ↔ ∃ w ∈ g.row node, st.color w = some c := by
    intro c; rw [setUsed_true, hi.used c]; simp
  have hu2 : ∀ c, setUsed st.color false (g.row node) (setUsed st.color true (g.row node) st.used) c = false := by
    intro c
    by_contra hne
    rw [Bool.not_eq_false, setUsed_false, hu1] at hne
    exact hne.2 hne.1
  obtain ⟨_, hl2, hl3⟩ := lowestColor_spec (setUsed st.color true (g.row node) st.used) g.size 0
  unfold colorNode
  dsimp only
  generalize hcol : lowestColor (setUsed st.color true (g.row node) st.used) g.size 0 = c at hl2 hl3
  -- the new color is bounded by the degree
  have hcd : c ≤ degree g node := by
    have : (List.range c).length ≤ (((g.row node).filter (· ≠ node)).filterMap st.color).length := by
      refine nodup_le_length List.nodup_range ?_
      intro x hx
      rw [List.mem_range] at hx
      obtain ⟨w, hw, hwc⟩ := (hu1 x).1 (hl2 x (Nat.zero_le _) hx)
      refine List.mem_filterMap.2 ⟨w, List.mem_filter.2 ⟨hw, ?_⟩, hwc⟩
      have : w ≠ node := by rintro rfl; rw [hc] at hwc; cases hwc
      simpa using this
    rw [List.length_range] at this
    exact Nat.le_trans this (List.length_filterMap_le _ _)
  have hcn : c < g.size := Nat.lt_of_le_of_lt hcd (degree_lt g hg node hn)
  have hfree : ∀ w ∈ g.row node, st.color w ≠ some c := by
    intro w hw hwc
    have h1 : setUsed st.color true (g.row node) st.used c = true := (hu1 c).2 ⟨w, hw, hwc⟩
    rcases hl3 with h3 | h3
    · rw [h1] at h3; cases h3
    · omega
  have hq' : QueueInv g.size
      { st with queue := q, used := setUsed st.color false (g.row node) (setUsed st.color true (g.row node) st.used),
                color := upd st.color node (some c), maxColor := max st.maxColor c } := by
    have hnd := hq.nodup
    rw [hst, List.nodup_cons] at hnd
    refine ⟨hnd.2, ?_⟩
    rintro ⟨x, y, v⟩
    have hm := hq.mem (x, y, v)
    rw [hst, List.mem_cons] at hm
    dsimp only at hm ⊢
    by_cases hv : v = node
    · subst hv
      rw [upd_self]
      constructor
      · intro hx
        exfalso
        obtain ⟨_, _, h1, h2⟩ := hm.1 (Or.inr hx)
        obtain ⟨_, _, h3, h4⟩ := (hq.mem (a, b, v)).1 (by rw [hst]; exact List.mem_cons_self ..)
        dsimp only at h3 h4
        rw [h1, h2, ← h3, ← h4] at hx
        exact hnd.1 hx
      · rintro ⟨_, h, _⟩; cases h
    · rw [upd_ne _ _ hv, ← hm]
      constructor
      · exact Or.inr
      · rintro (h | h)
        · simp [hv] at h
        · exact h
  obtain ⟨st', h1, h2, h3, h4, h5, h6⟩ := updateQueue_spec g.size c (g.row node) _ hq' (fun w hw => (hg.lt node w hw).2)
  refine ⟨st', h1, h2, ?_, h6⟩
  dsimp only at h3 h4 h5
  constructor
  · intro x; rw [h4]; exact hu2 x
  · intro v w x hw hvw hv
    rw [h3] at hv ⊢
    by_cases hvn : v = node
    · subst hvn
      rw [upd_self] at hv
      cases hv
      rw [upd_ne _ _ (Ne.symm hvw)]
      exact hfree w hw
    · rw [upd_ne _ _ hvn] at hv
      by_cases hwn : w = node
      · subst hwn
        rw [upd_self]
        intro h
        cases h
        exact hfree v (hg.symm v w hw) hv
      · rw [upd_ne _ _ hwn]
        exact hi.proper v w x hw hvw hv
  · intro v x hv
    rw [h3] at hv
    rw [h5]
    by_cases hvn : v = node
    · subst hvn
      rw [upd_self] at hv
      cases hv
      exact ⟨Nat.le_max_right .., hcd⟩
    · rw [upd_ne _ _ hvn] at hv
      obtain ⟨h7, h8⟩ := hi.bound v x hv
      exact ⟨Nat.le_trans h7 (Nat.le_max_left ..), h8⟩
  · rw [h5, h3]
    by_cases hm : st.maxColor ≤ c
    · right
      exact ⟨node, hn, by rw [upd_self, Nat.max_eq_right hm]⟩
    · rw [Nat.max_eq_left (by omega)]
      rcases hi.attained with h | ⟨v, hv, h⟩
      · omega
      · right
        refine ⟨v, hv, ?_⟩
        rw [upd_ne _ _ (by rintro rfl; rw [hc] at h; cases h)]
        exact h

theorem colorLoop_spec (g : Graph) (hg : Symmetric g) (fuel : Nat) (st : ColorState) (hf : st.queue.length ≤ fuel)
    (hq : QueueInv g.size st) (hi : ColorInv g st) :
    ∃ st', colorLoop g fuel st = .ok st' ∧ ColorInv g st' ∧ ∀ v, v < g.size → st'.color v ≠ none := by
  induction fuel generalizing st with
  | zero =>
    have : st.queue = [] := List.length_eq_zero_iff.1 (by omega)
    refine ⟨st, by simp only [colorLoop, this], hi, ?_⟩
    intro v hv hn
    have := (hq.mem ((st.adjacent v).length, st.degree v, v)).2 ⟨hv, hn, rfl, rfl⟩
    simp_all
  | succ fuel ih =>
    unfold colorLoop
    match hst : st.queue with
    | [] =>
      refine ⟨st, rfl, hi, ?_⟩
      intro v hv hn
      have := (hq.mem ((st.adjacent v).length, st.degree v, v)).2 ⟨hv, hn, rfl, rfl⟩
      simp_all
    | (a, b, node) :: q =>
      dsimp only
      obtain ⟨h1, h2, _, _⟩ := (hq.mem (a, b, node)).1 (by rw [hst]; exact List.mem_cons_self ..)
      obtain ⟨st', h3, h4, h5, h6⟩ := colorNode_spec g hg node h1 a b q st hst h2 hq hi
      rw [h3]
      rw [hst, List.length_cons] at hf
      exact ih st' (by omega) h4 h5

theorem initQueue_spec (g : Graph) (hd : ∀ v, v < g.size → (g.row v).length < 255) (k v : Nat) (st : ColorState) (hk : v + k = g.size)
    (hcol : ∀ w, st.color w = none) (hadj : ∀ w, st.adjacent w = []) (hlen : st.queue.length = v) (hnd : st.queue.Nodup)
    (hmem : ∀ t : Entry, t ∈ st.queue ↔ t.2.2 < v ∧ t.1 = 0 ∧ t.2.1 = st.degree t.2.2) :
    ∃ st', initQueue g k v st = .ok st' ∧ QueueInv g.size st' ∧ st'.queue.length = g.size ∧ st'.color = st.color ∧ st'.used = st.used ∧
      st'.maxColor = st.maxColor := by
  induction k generalizing v st with
  | zero =>
    refine ⟨st, rfl, ⟨hnd, ?_⟩, by omega, rfl, rfl, rfl⟩
    intro t
    rw [hmem, hcol, hadj, show g.size = v by omega]
    simp
  | succ k ih =>
    simp only [initQueue]
    rw [if_neg (by have := hd v (by omega); omega)]
    have hnot : ∀ a b, ((a, b, v) : Entry) ∉ st.queue := by
      intro a b h
      have := ((hmem _).1 h).1
      exact Nat.lt_irrefl _ this
    refine ih (v + 1) _ (by omega) hcol hadj ?_ (nodup_queueInsert _ _ hnd (hnot _ _)) ?_
    · show (queueInsert _ _).length = _
      rw [length_queueInsert _ _ (hnot _ _), hlen]
    · rintro ⟨a, b, w⟩
      show (a, b, w) ∈ queueInsert _ _ ↔ _
      rw [mem_queueInsert, hmem]
      dsimp only
      by_cases hw : w = v
      · subst hw
        rw [upd_self]
        simp
      · rw [upd_ne _ _ hw]
        simp only [Prod.mk.injEq, hw, and_false, false_or]
        constructor
        · rintro ⟨h1, h2⟩; exact ⟨by omega, h2⟩
        · rintro ⟨h1, h2⟩; exact ⟨by omega, h2⟩

theorem checkAll_spec (g : Graph) (st : ColorState) (hi : ColorInv g st) (hall : ∀ v, v < g.size → st.color v ≠ none) (k v : Nat)
    (hk : v + k = g.size) : checkAll g st.color st.maxColor k v = .ok () := by
  induction k generalizing v with
  | zero => rfl
  | succ k ih =>
    have hv : ∀ ws, (∀ w ∈ ws, w ∈ g.row v) → checkVertex st.color st.maxColor v ws = .ok () := by
      intro ws
      induction ws with
      | nil => intro _; rfl
      | cons w ws ih2 =>
        intro hws
        simp only [checkVertex]
        cases hc : st.color v with
        | none => exact absurd hc (hall v (by omega))
        | some c =>
          rw [if_neg (by
            rintro ⟨h1, h2⟩
            exact hi.proper v w c (hws w (List.mem_cons_self ..)) h1 hc h2.symm)]
          dsimp only
          rw [if_neg (by have := (hi.bound v c hc).1; omega)]
          exact ih2 (fun w' hw' => hws w' (List.mem_cons_of_mem _ hw'))
    simp only [checkAll, hv (g.row v) (fun _ h => h)]
    exact ih (v + 1) (by omega)

theorem makeColors_spec (g : Graph) (hg : Symmetric g) (hd : ∀ v, v < g.size → (g.row v).length < 255) :
    ∃ color count, makeColors g = .ok (color, count) ∧
      (∀ v, v < g.size → ∃ c, color v = some c ∧ c < count ∧ c ≤ degree g v ∧ ∀ w ∈ g.row v, w ≠ v → color w ≠ some c) ∧
      (count = 1 ∨ ∃ v, v < g.size ∧ color v = some (count - 1)) := by
  obtain ⟨st, h1, h2, h3, h4, h5, h6⟩ := initQueue_spec g hd g.size 0
    ⟨fun _ => none, fun _ => 0, fun _ => [], fun _ => false, 0, []⟩ (by omega) (fun _ => rfl) (fun _ => rfl) rfl List.nodup_nil
    (by simp)
  have hi : ColorInv g st := by
    refine ⟨?_, ?_, ?_, Or.inl h6⟩
    · intro c; rw [h5]
    · intro v w c _ _ h; rw [h4] at h; cases h
    · intro v c h; rw [h4] at h; cases h
  obtain ⟨st', h7, h8, h9⟩ := colorLoop_spec g hg g.size st (by omega) h2 hi
  refine ⟨st'.color, st'.maxColor + 1, ?_, ?_, ?_⟩
  · unfold makeColors
    rw [h1]; dsimp only
    rw [h7]; dsimp only
    rw [checkAll_spec g st' h8 h9 g.size 0 (by omega)]
  · intro v hv
    cases hc : st'.color v with
    | none => exact absurd hc (h9 v hv)
    | some c =>
      obtain ⟨hb1, hb2⟩ := h8.bound v c hc
      exact ⟨c, rfl, by omega, hb2, fun w hw hwv => h8.proper v w c hw (Ne.symm hwv) hc⟩
  · rcases h8.attained with h | ⟨v, hv, h⟩
    · left; omega
    · right; exact ⟨v, hv, by simpa using h⟩

theorem initQueue_throws (g : Graph) (k v : Nat) (st : ColorState) (h : ∃ w, v ≤ w ∧ w < v + k ∧ 255 ≤ (g.row w).length) :
    initQueue g k v st = .error .degreeTooLarge := by
  induction k generalizing v st with
  | zero => obtain ⟨w, h1, h2, _⟩ := h; omega
  | succ k ih =>
    simp only [initQueue]
    by_cases hv : (g.row v).length ≥ 255
    · rw [if_pos hv]
    · rw [if_neg hv]
      obtain ⟨w, h1, h2, h3⟩ := h
      have : w ≠ v := by rintro rfl; exact hv h3
      exact ih _ _ ⟨w, by omega, by omega, h3⟩

/-! ### Label sets -/

theorem distribute_spec (color : Nat → Option Nat) (count id : Nat) (ps : List (List Nat)) (labels : List (List (List Nat)))
    (hl : labels.length = count) (hc : ∀ i, i < id + ps.length → id ≤ i → ∃ c, color i = some c ∧ c < count) :
    ∃ labels', distribute color id ps labels = some labels' ∧ labels'.length = count ∧
      ∀ c, c < count → labels'.getD c [] = labels.getD c [] ++ ((ps.zipIdx id).filter fun x => color x.2 = some c).map (·.1) := by
  induction ps generalizing id labels with
  | nil => exact ⟨labels, rfl, hl, fun c _ => by simp⟩
  | cons p ps ih =>
    obtain ⟨c, hc1, hc2⟩ := hc id (by simp) (Nat.le_refl _)
    simp only [distribute, hc1]
    rw [if_pos (by omega)]
    obtain ⟨labels', h1, h2, h3⟩ := ih (id + 1) (labels.set c (labels.getD c [] ++ [p])) (by simpa using hl)
      (fun i hi1 hi2 => hc i (by simp only [List.length_cons]; omega) (by omega))
    refine ⟨labels', h1, h2, ?_⟩
    intro x hx
    rw [h3 x hx, List.zipIdx_cons, List.filter_cons]
    by_cases hxc : x = c
    · subst hxc
      simp [hc1, List.getD_eq_getElem?_getD, List.getElem?_set_self (show x < labels.length by omega)]
    · rw [if_neg (by simp [hc1, Ne.symm hxc]), List.getD_eq_getElem?_getD, List.getElem?_set_ne (Ne.symm hxc),
        ← List.getD_eq_getElem?_getD]

/-! ### Interleavings -/

theorem execAll_cons (st : Shared) (o : Nat × Op) (tr : List (Nat × Op)) : execAll st (o :: tr) = execAll (exec st o.1 o.2) tr := rfl

theorem execAll_append (st : Shared) (a b : List (Nat × Op)) : execAll st (a ++ b) = execAll (execAll st a) b := List.foldl_append

theorem mem_prog {prog : Nat → List Op} {tr : List (Nat × Op)} (h : Interleaving prog tr) (t : Nat) (o : Op) :
    (t, o) ∈ tr ↔ o ∈ prog t := by
  rw [← h t]
  simp

/-- Phase 1. -/
theorem exec_phase1 (tr : List (Nat × Op)) (h : ∀ o ∈ tr, ∃ s id, o.2 = .storeOwner s id) (st : Shared) :
    (execAll st tr).overlap = st.overlap ∧ (execAll st tr).halo = st.halo ∧
    ∀ s, (∃ t id, (t, Op.storeOwner s id) ∈ tr ∧ (execAll st tr).owner s = id) ∨
      ((∀ t id, (t, Op.storeOwner s id) ∉ tr) ∧ (execAll st tr).owner s = st.owner s) := by
  induction tr generalizing st with
  | nil => exact ⟨rfl, rfl, fun s => Or.inr ⟨fun _ _ h => by simp at h, rfl⟩⟩
  | cons o tr ih =>
    obtain ⟨t0, op⟩ := o
    obtain ⟨s0, id0, hop⟩ := h (t0, op) (List.mem_cons_self ..)
    dsimp only at hop
    subst hop
    rw [execAll_cons]
    obtain ⟨h1, h2, h3⟩ := ih (fun o ho => h o (List.mem_cons_of_mem _ ho)) (exec st t0 (.storeOwner s0 id0))
    refine ⟨h1, h2, ?_⟩
    intro s
    rcases h3 s with ⟨t, id, h4, h5⟩ | ⟨h4, h5⟩
    · exact Or.inl ⟨t, id, List.mem_cons_of_mem _ h4, h5⟩
    · by_cases hs : s = s0
      · subst hs
        refine Or.inl ⟨t0, id0, List.mem_cons_self .., ?_⟩
        rw [h5]; exact upd_self ..
      · refine Or.inr ⟨?_, ?_⟩
        · intro t id hm
          rcases List.mem_cons.1 hm with hm | hm
          · simp [hs] at hm
          · exact h4 t id hm
        · rw [h5]; exact upd_ne _ _ hs

/-- What is left of a thread in phase 2: possibly a pending store, then pairs of loads and stores. -/
def rest2 (P : Option (Nat × Nat)) (V : List (Nat × Nat)) : List Op :=
  (match P with
    | some (s, id) => [.storeOverlap s id]
    | none => []) ++ V.flatMap fun v => [.loadOwner v.1, .storeOverlap v.1 v.2]

theorem filter_cons_self (t : Nat) (o : Op) (tr : List (Nat × Op)) :
    (((t, o) :: tr).filter fun x => x.1 = t).map (·.2) = o :: (tr.filter fun x => x.1 = t).map (·.2) := by
  simp

theorem filter_cons_ne {t t' : Nat} (o : Op) (tr : List (Nat × Op)) (h : t' ≠ t) :
    (((t, o) :: tr).filter fun x => x.1 = t').map (·.2) = (tr.filter fun x => x.1 = t').map (·.2) := by
  simp [Ne.symm h]

theorem exec_phase2 (tr : List (Nat × Op)) (st : Shared) (P : Nat → Option (Nat × Nat)) (V : Nat → List (Nat × Nat))
    (hp : Interleaving (fun t => rest2 (P t) (V t)) tr) (hreg : ∀ t s id, P t = some (s, id) → st.regOwner t = st.owner s) :
    (execAll st tr).owner = st.owner ∧ (execAll st tr).halo = st.halo ∧
    ∀ s, (execAll st tr).overlap s = true ↔
      st.overlap s = true ∨ ∃ t id, (P t = some (s, id) ∨ (s, id) ∈ V t) ∧ st.owner s ≠ id := by
  induction tr generalizing st P V with
  | nil =>
    refine ⟨rfl, rfl, fun s => ⟨Or.inl, ?_⟩⟩
    rintro (h | ⟨t, id, h, _⟩)
    · exact h
    · exfalso
      have := hp t
      rcases h with h | h
      · simp [rest2, h] at this
      · cases hV : V t with
        | nil => rw [hV] at h; simp at h
        | cons v vs => simp [rest2, hV] at this
  | cons o tr ih =>
    obtain ⟨t0, op⟩ := o
    have h0 := hp t0
    rw [filter_cons_self] at h0
    rw [execAll_cons]
    cases hP : P t0 with
    | some si =>
      obtain ⟨s0, id0⟩ := si
      simp only [rest2, hP, List.cons_append, List.nil_append, List.cons.injEq] at h0
      obtain ⟨rfl, h0⟩ := h0
      have hr := hreg t0 s0 id0 hP
      have hp' : Interleaving (fun t => rest2 (upd P t0 none t) (V t)) tr := by
        intro t
        by_cases ht : t = t0
        · subst ht; rw [h0]; simp [rest2, upd_self]
        · rw [← filter_cons_ne (Op.storeOverlap s0 id0) tr ht, hp t]; dsimp only; rw [upd_ne _ _ ht]
      have hst : (exec st t0 (.storeOverlap s0 id0)).owner = st.owner ∧ (exec st t0 (.storeOverlap s0 id0)).halo = st.halo ∧
          (exec st t0 (.storeOverlap s0 id0)).regOwner = st.regOwner ∧
          ∀ s, (exec st t0 (.storeOverlap s0 id0)).overlap s = true ↔ st.overlap s = true ∨ (s = s0 ∧ st.owner s ≠ id0) := by
        unfold exec
        dsimp only
        split
        · rename_i hne
          refine ⟨rfl, rfl, rfl, fun s => ?_⟩
          by_cases hs : s = s0
          · subst hs; dsimp only; rw [upd_self]; simp; right; rw [← hr]; exact hne
          · dsimp only; rw [upd_ne _ _ hs]; simp [hs]
        · rename_i hne
          refine ⟨rfl, rfl, rfl, fun s => ?_⟩
          constructor
          · exact Or.inl
          · rintro (h | ⟨rfl, h⟩)
            · exact h
            · rw [← hr] at h; exact absurd h hne
      obtain ⟨e1, e2, e3, e4⟩ := hst
      obtain ⟨h1, h2, h3⟩ := ih (exec st t0 (.storeOverlap s0 id0)) (upd P t0 none) V hp' (by
        intro t s id h
        rw [e3, e1]
        by_cases ht : t = t0
        · subst ht; rw [upd_self] at h; cases h
        · rw [upd_ne _ _ ht] at h; exact hreg t s id h)
      refine ⟨h1.trans e1, h2.trans e2, fun s => ?_⟩
      rw [h3 s, e4 s, e1]
      constructor
      · rintro ((h | ⟨rfl, h⟩) | ⟨t, id, h, hne⟩)
        · exact Or.inl h
        · exact Or.inr ⟨t0, id0, Or.inl hP, h⟩
        · refine Or.inr ⟨t, id, ?_, hne⟩
          rcases h with h | h
          · by_cases ht : t = t0
            · subst ht; rw [upd_self] at h; cases h
            · rw [upd_ne _ _ ht] at h; exact Or.inl h
          · exact Or.inr h
      · rintro (h | ⟨t, id, h, hne⟩)
        · exact Or.inl (Or.inl h)
        · rcases h with h | h
          · by_cases ht : t = t0
            · subst ht
              rw [hP] at h
              cases h
              exact Or.inl (Or.inr ⟨rfl, hne⟩)
            · exact Or.inr ⟨t, id, Or.inl (by rw [upd_ne _ _ ht]; exact h), hne⟩
          · exact Or.inr ⟨t, id, Or.inr h, hne⟩
    | none =>
      cases hV : V t0 with
      | nil => simp [rest2, hP, hV] at h0
      | cons v vs =>
        obtain ⟨s0, id0⟩ := v
        simp only [rest2, hP, hV, List.flatMap_cons, List.cons_append, List.nil_append, List.cons.injEq] at h0
        obtain ⟨rfl, h0⟩ := h0
        have hp' : Interleaving (fun t => rest2 (upd P t0 (some (s0, id0)) t) (upd V t0 vs t)) tr := by
          intro t
          by_cases ht : t = t0
          · subst ht; rw [h0]; simp [rest2, upd_self]
          · rw [← filter_cons_ne (Op.loadOwner s0) tr ht, hp t]; dsimp only; rw [upd_ne _ _ ht, upd_ne _ _ ht]
        obtain ⟨h1, h2, h3⟩ := ih (exec st t0 (.loadOwner s0)) (upd P t0 (some (s0, id0))) (upd V t0 vs) hp' (by
          intro t s id h
          show upd st.regOwner t0 (st.owner s0) t = st.owner s
          by_cases ht : t = t0
          · subst ht; rw [upd_self] at h ⊢; cases h; rfl
          · rw [upd_ne _ _ ht] at h ⊢; exact hreg t s id h)
        refine ⟨h1, h2, fun s => ?_⟩
        rw [h3 s]
        show (st.overlap s = true ∨ ∃ t id, (_ ∨ _) ∧ st.owner s ≠ id) ↔ _
        refine or_congr Iff.rfl (exists_congr fun t => exists_congr fun id => and_congr ?_ Iff.rfl)
        by_cases ht : t = t0
        · subst ht
          rw [upd_self, upd_self, hP, hV]
          simp only [Option.some.injEq, Prod.mk.injEq, List.mem_cons, reduceCtorEq, false_or]
          constructor
          · rintro (⟨rfl, rfl⟩ | h)
            · exact Or.inl ⟨rfl, rfl⟩
            · exact Or.inr h
          · rintro (⟨rfl, rfl⟩ | h)
            · exact Or.inl ⟨rfl, rfl⟩
            · exact Or.inr h
        · rw [upd_ne _ _ ht, upd_ne _ _ ht]

/-- What is left of a thread in phase 3. -/
def rest3 (P : Option (Nat × Nat)) (V : List (Nat × Nat)) : List Op :=
  (match P with
    | some (_, e) => [.storeHalo e]
    | none => []) ++ V.flatMap fun v => [.loadOverlap v.1, .storeHalo v.2]

theorem exec_phase3 (tr : List (Nat × Op)) (st : Shared) (P : Nat → Option (Nat × Nat)) (V : Nat → List (Nat × Nat))
    (hp : Interleaving (fun t => rest3 (P t) (V t)) tr) (hreg : ∀ t s e, P t = some (s, e) → st.regOverlap t = st.overlap s) :
    ∀ e, (execAll st tr).halo e = true ↔
      st.halo e = true ∨ ∃ t s, (P t = some (s, e) ∨ (s, e) ∈ V t) ∧ st.overlap s = true := by
  induction tr generalizing st P V with
  | nil =>
    refine fun e => ⟨Or.inl, ?_⟩
    rintro (h | ⟨t, id, h, _⟩)
    · exact h
    · exfalso
      have := hp t
      rcases h with h | h
      · simp [rest3, h] at this
      · cases hV : V t with
        | nil => rw [hV] at h; simp at h
        | cons v vs => simp [rest3, hV] at this
  | cons o tr ih =>
    obtain ⟨t0, op⟩ := o
    have h0 := hp t0
    rw [filter_cons_self] at h0
    rw [execAll_cons]
    cases hP : P t0 with
    | some si =>
      obtain ⟨s0, e0⟩ := si
      simp only [rest3, hP, List.cons_append, List.nil_append, List.cons.injEq] at h0
      obtain ⟨rfl, h0⟩ := h0
      have hr := hreg t0 s0 e0 hP
      have hp' : Interleaving (fun t => rest3 (upd P t0 none t) (V t)) tr := by
        intro t
        by_cases ht : t = t0
        · subst ht; rw [h0]; simp [rest3, upd_self]
        · rw [← filter_cons_ne (Op.storeHalo e0) tr ht, hp t]; dsimp only; rw [upd_ne _ _ ht]
      have hst : (exec st t0 (.storeHalo e0)).overlap = st.overlap ∧
          (exec st t0 (.storeHalo e0)).regOverlap = st.regOverlap ∧
          ∀ e, (exec st t0 (.storeHalo e0)).halo e = true ↔ st.halo e = true ∨ (e = e0 ∧ st.overlap s0 = true) := by
        unfold exec
        dsimp only
        split
        · rename_i hne
          refine ⟨rfl, rfl, fun e => ?_⟩
          by_cases hs : e = e0
          · subst hs; dsimp only; rw [upd_self]; simp; right; rw [← hr]; exact hne
          · dsimp only; rw [upd_ne _ _ hs]; simp [hs]
        · rename_i hne
          refine ⟨rfl, rfl, fun e => ?_⟩
          constructor
          · exact Or.inl
          · rintro (h | ⟨rfl, h⟩)
            · exact h
            · rw [← hr] at h; exact absurd h hne
      obtain ⟨e1, e3, e4⟩ := hst
      have h3 := ih (exec st t0 (.storeHalo e0)) (upd P t0 none) V hp' (by
        intro t s id h
        rw [e3, e1]
        by_cases ht : t = t0
        · subst ht; rw [upd_self] at h; cases h
        · rw [upd_ne _ _ ht] at h; exact hreg t s id h)
      refine fun e => ?_
      rw [h3 e, e4 e, e1]
      constructor
      · rintro ((h | ⟨rfl, h⟩) | ⟨t, s, h, hne⟩)
        · exact Or.inl h
        · exact Or.inr ⟨t0, s0, Or.inl hP, h⟩
        · refine Or.inr ⟨t, s, ?_, hne⟩
          rcases h with h | h
          · by_cases ht : t = t0
            · subst ht; rw [upd_self] at h; cases h
            · rw [upd_ne _ _ ht] at h; exact Or.inl h
          · exact Or.inr h
      · rintro (h | ⟨t, s, h, hne⟩)
        · exact Or.inl (Or.inl h)
        · rcases h with h | h
          · by_cases ht : t = t0
            · subst ht
              rw [hP] at h
              cases h
              exact Or.inl (Or.inr ⟨rfl, hne⟩)
            · exact Or.inr ⟨t, s, Or.inl (by rw [upd_ne _ _ ht]; exact h), hne⟩
          · exact Or.inr ⟨t, s, Or.inr h, hne⟩
    | none =>
      cases hV : V t0 with
      | nil => simp [rest3, hP, hV] at h0
      | cons v vs =>
        obtain ⟨s0, e0⟩ := v
        simp only [rest3, hP, hV, List.flatMap_cons, List.cons_append, List.nil_append, List.cons.injEq] at h0
        obtain ⟨rfl, h0⟩ := h0
        have hp' : Interleaving (fun t => rest3 (upd P t0 (some (s0, e0)) t) (upd V t0 vs t)) tr := by
          intro t
          by_cases ht : t = t0
          · subst ht; rw [h0]; simp [rest3, upd_self]
          · rw [← filter_cons_ne (Op.loadOverlap s0) tr ht, hp t]; dsimp only; rw [upd_ne _ _ ht, upd_ne _ _ ht]
        have h3 := ih (exec st t0 (.loadOverlap s0)) (upd P t0 (some (s0, e0))) (upd V t0 vs) hp' (by
          intro t s id h
          show upd st.regOverlap t0 (st.overlap s0) t = st.overlap s
          by_cases ht : t = t0
          · subst ht; rw [upd_self] at h ⊢; cases h; rfl
          · rw [upd_ne _ _ ht] at h ⊢; exact hreg t s id h)
        refine fun e => ?_
        rw [h3 e]
        show (st.halo e = true ∨ ∃ t s, (_ ∨ _) ∧ st.overlap s = true) ↔ _
        refine or_congr Iff.rfl (exists_congr fun t => exists_congr fun s => and_congr ?_ Iff.rfl)
        by_cases ht : t = t0
        · subst ht
          rw [upd_self, upd_self, hP, hV]
          simp only [Option.some.injEq, Prod.mk.injEq, List.mem_cons, reduceCtorEq, false_or]
          constructor
          · rintro (⟨rfl, rfl⟩ | h)
            · exact Or.inl ⟨rfl, rfl⟩
            · exact Or.inr h
          · rintro (⟨rfl, rfl⟩ | h)
            · exact Or.inl ⟨rfl, rfl⟩
            · exact Or.inr h
        · rw [upd_ne _ _ ht, upd_ne _ _ ht]

theorem progOverlap_eq (g : Grid) (id d e : Nat) :
    progOverlap g id d e = (visitsOf g d e).flatMap fun s => [Op.loadOwner s, Op.storeOverlap s id] := by
  induction d generalizing e with
  | zero => rfl
  | succ d ih => simp only [progOverlap, visitsOf, progEntity, List.flatMap_append, List.flatMap_assoc, ih]

theorem phase2_eq (g : Grid) (d : Nat) (patches : List (List Nat)) (id : Nat) :
    phase2 g d patches id = rest2 none ((patches.getD id []).flatMap fun e => (visitsOf g d e).map fun s => (s, id)) := by
  unfold phase2 rest2
  rw [List.nil_append, List.flatMap_assoc]
  congr 1
  funext e
  rw [progOverlap_eq, List.flatMap_map]

theorem phase3_eq (g : Grid) (patches : List (List Nat)) (id : Nat) :
    phase3 g patches id = rest3 none ((patches.getD id []).flatMap fun e => (g.sub e).map fun s => (s, e)) := by
  unfold phase3 rest3
  rw [List.nil_append, List.flatMap_assoc]
  congr 1
  funext e
  rw [progHalo, List.flatMap_map]

/-- The elements marked by one label set, for every interleaving. -/
theorem labelRun_spec {g : Grid} {d : Nat} {patches : List (List Nat)} {h h' : Nat → Bool} (hr : LabelRun g d patches h h') (e : Nat) :
    h' e = true ↔ h e = true ∨ ∃ (i : Nat) (p : List Nat), patches[i]? = some p ∧ e ∈ p ∧ ∃ s ∈ g.sub e,
      ∃ (j : Nat) (q : List Nat), j ≠ i ∧ patches[j]? = some q ∧ InHalo g d q s := by
  obtain ⟨regO, regB, t1, t2, t3, h1, h2, h3⟩ := hr
  rw [execAll_append, execAll_append]
  have hs1 : ∀ o ∈ t1, ∃ s id, o.2 = .storeOwner s id := by
    rintro ⟨t, o⟩ ho
    have := (mem_prog h1 t o).1 ho
    simp only [phase1, progOwner, List.mem_flatMap, List.mem_map] at this
    obtain ⟨_, _, s, _, rfl⟩ := this
    exact ⟨s, t, rfl⟩
  obtain ⟨a1, a2, a3⟩ := exec_phase1 t1 hs1 ⟨fun _ => noOwner patches.length, fun _ => false, h, regO, regB⟩
  generalize execAll ⟨fun _ => noOwner patches.length, fun _ => false, h, regO, regB⟩ t1 = st1 at a1 a2 a3
  have h2' : Interleaving (fun t => rest2 ((fun _ => none) t) ((patches.getD t []).flatMap fun e => (visitsOf g d e).map fun s => (s, t))) t2 :=
    fun t => (h2 t).trans (phase2_eq g d patches t)
  obtain ⟨b1, b2, b3⟩ := exec_phase2 t2 st1 (fun _ => none) _ h2' (by intro t s id h; cases h)
  generalize execAll st1 t2 = st2 at b1 b2 b3
  have h3' : Interleaving (fun t => rest3 ((fun _ => none) t) ((patches.getD t []).flatMap fun e => (g.sub e).map fun s => (s, e))) t3 :=
    fun t => (h3 t).trans (phase3_eq g patches t)
  have c3 := exec_phase3 t3 st2 (fun _ => none) _ h3' (by intro t s id h; cases h) e
  rw [c3, b2, a2]
  -- the three tables in terms of patches
  have getD_iff : ∀ t e, e ∈ patches.getD t [] ↔ ∃ p, patches[t]? = some p ∧ e ∈ p := by
    intro t e
    rw [List.getD_eq_getElem?_getD]
    cases patches[t]? with
    | none => simp
    | some p => simp
  have hov : ∀ s, st2.overlap s = true ↔ ∃ t p, patches[t]? = some p ∧ InHalo g d p s ∧ st1.owner s ≠ t := by
    intro s
    rw [b3 s, a1]
    simp only [Bool.false_eq_true, false_or, reduceCtorEq, List.mem_flatMap, List.mem_map, Prod.mk.injEq, mem_visitsOf, getD_iff]
    constructor
    · rintro ⟨t, id, ⟨e, ⟨p, hp, he⟩, s', ⟨e', h1, h2⟩, rfl, rfl⟩, hne⟩
      exact ⟨t, p, hp, ⟨e, he, e', h1, h2⟩, hne⟩
    · rintro ⟨t, p, hp, ⟨e, he, e', h1, h2⟩, hne⟩
      exact ⟨t, t, ⟨e, ⟨p, hp, he⟩, s, ⟨e', h1, h2⟩, rfl, rfl⟩, hne⟩
  have howner : ∀ (s t : Nat) (p : List Nat) (e : Nat), patches[t]? = some p → e ∈ p → s ∈ g.sub e →
      ∃ p', patches[st1.owner s]? = some p' ∧ InHalo g d p' s := by
    intro s t p e hp he hs
    rcases a3 s with ⟨t', id, hm, ho⟩ | ⟨hm, _⟩
    · have := (mem_prog h1 _ _).1 hm
      simp only [phase1, progOwner, List.mem_flatMap, List.mem_map, Op.storeOwner.injEq, getD_iff] at this
      obtain ⟨e', ⟨p', hp', he'⟩, s', hs', rfl, rfl⟩ := this
      exact ⟨p', by rw [ho]; exact hp', e', he', e', .here _ _, hs'⟩
    · exfalso
      refine hm t t ((mem_prog h1 _ _).2 ?_)
      simp only [phase1, progOwner, List.mem_flatMap, List.mem_map, getD_iff]
      exact ⟨e, ⟨p, hp, he⟩, s, hs, rfl⟩
  refine or_congr Iff.rfl ?_
  simp only [reduceCtorEq, false_or, List.mem_flatMap, List.mem_map, Prod.mk.injEq, getD_iff]
  constructor
  · rintro ⟨t, s, ⟨e0, ⟨p, hp, he⟩, s', hs, rfl, rfl⟩, hov'⟩
    obtain ⟨j, q, hq, hin, hne⟩ := (hov s').1 hov'
    refine ⟨t, p, hp, he, s', hs, ?_⟩
    by_cases hjt : j = t
    · subst hjt
      obtain ⟨p', hp', hin'⟩ := howner s' j p e0 hp he hs
      exact ⟨_, p', hne, hp', hin'⟩
    · exact ⟨j, q, hjt, hq, hin⟩
  · rintro ⟨i, p, hp, he, s, hs, j, q, hji, hq, hin⟩
    refine ⟨i, s, ⟨e, ⟨p, hp, he⟩, s, hs, rfl, rfl⟩, (hov s).2 ?_⟩
    by_cases hoi : st1.owner s = i
    · exact ⟨j, q, hq, hin, by rw [hoi]; exact Ne.symm hji⟩
    · exact ⟨i, p, hp, ⟨e, he, e, .here _ _, hs⟩, hoi⟩

end Verif.Partition
