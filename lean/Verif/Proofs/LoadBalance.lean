import Mathlib.Data.List.Induction
import Verif.Spec.LoadBalance
set_option linter.unusedSectionVars false
/-
Helpers for C183.
-/
namespace Verif.LoadBalance

open DataHandle

variable {Byte E I K : Type} [DecidableEq I]

/-! ### Maps -/

/-- The entities in the order in which maps are filled and read. -/
def visited (s : Space E) (p : Nat) : Nat → List E
  | 0 => if s.hasDOFs 0 then s.interiorBorder p 0 else []
  | c + 1 => (if s.hasDOFs (c + 1) then s.interiorBorder p (c + 1) else []) ++ visited s p c

theorem mem_visited (s : Space E) (p dim : Nat) (e : E) :
    e ∈ visited s p dim ↔ ∃ c ≤ dim, s.hasDOFs c = true ∧ e ∈ s.interiorBorder p c := by
  induction dim with
  | zero =>
    unfold visited
    constructor
    · intro h
      split at h
      · exact ⟨0, Nat.le_refl _, by assumption, h⟩
      · simp at h
    · rintro ⟨c, hc, h, he⟩
      obtain rfl : c = 0 := by omega
      simp [h, he]
  | succ n ih =>
    unfold visited
    rw [List.mem_append, ih]
    constructor
    · rintro (h | ⟨c, hc, h⟩)
      · split at h
        · exact ⟨n + 1, Nat.le_refl _, by assumption, h⟩
        · simp at h
      · exact ⟨c, by omega, h⟩
    · rintro ⟨c, hc, h, he⟩
      by_cases e1 : c = n + 1
      · subst e1; left; simp [h, he]
      · right; exact ⟨c, by omega, h, he⟩

theorem fillMap_eq (id : E → I) (s : Space E) (p : Nat) (v : Nat → K) (dim : Nat) (m : DofMap I K) :
    fillMap id s p v dim m = (visited s p dim).foldl (fun m e => insertNew m (id e) ((s.dofs p e).map v)) m := by
  induction dim generalizing m with
  | zero => unfold fillMap visited mapFiller; split <;> rfl
  | succ n ih =>
    unfold fillMap visited mapFiller
    rw [ih, List.foldl_append]
    split <;> rfl

/-- One step of reading. -/
def readStep (id : E → I) (s : Space E) (p : Nat) (m : DofMap I K) (v : Nat → K) (e : E) : Option (Nat → K) := do
  let d ← m (id e)
  if d.length = (s.dofs p e).length then some (store v (s.dofs p e) d) else none

theorem readMap_eq (id : E → I) (s : Space E) (p : Nat) (m : DofMap I K) (dim : Nat) (v : Nat → K) :
    readMap id s p m dim v = (visited s p dim).foldlM (readStep id s p m) v := by
  induction dim generalizing v with
  | zero => unfold readMap visited mapReader readStep; split <;> rfl
  | succ n ih =>
    unfold readMap visited mapReader
    rw [List.foldlM_append]
    split
    · cases h : (List.foldlM (readStep id s p m) v (s.interiorBorder p (n + 1))) with
      | none => unfold readStep at h; simp only [h]; rfl
      | some w =>
        have h' := h
        unfold readStep at h
        simp only [h]
        exact ih w
    · exact ih v

theorem insertNew_self (m : DofMap I K) (i : I) (d : List K) : (insertNew m i d i) = some ((m i).getD d) := by
  unfold insertNew
  cases h : m i <;> simp [h]

theorem insertNew_of_some (m : DofMap I K) (i j : I) (d x : List K) (h : m j = some x) : insertNew m i d j = some x := by
  unfold insertNew
  split
  · exact h
  · rename_i h1
    by_cases e : j = i
    · subst e; simp [h] at h1
    · simp [e, h]

theorem insertNew_ne (m : DofMap I K) (i j : I) (d : List K) (h : j ≠ i) : insertNew m i d j = m j := by
  unfold insertNew
  split
  · rfl
  · simp [h]

/-- After filling, the map has the values of all entities visited, and nothing else. -/
theorem fold_insert (id : E → I) (f : E → List K) (val : I → List K) (l : List E) (m : DofMap I K)
    (hf : ∀ e ∈ l, f e = val (id e)) (hm : ∀ i d, m i = some d → d = val i) :
    (∀ e ∈ l, l.foldl (fun m e => insertNew m (id e) (f e)) m (id e) = some (val (id e))) ∧
    (∀ i d, m i = some d → l.foldl (fun m e => insertNew m (id e) (f e)) m i = some d) ∧
    ∀ i d, l.foldl (fun m e => insertNew m (id e) (f e)) m i = some d → d = val i := by
  induction l generalizing m with
  | nil => exact ⟨by simp, fun _ _ h => h, fun i d h => hm i d h⟩
  | cons e l ih =>
    have hs : ∀ i d, insertNew m (id e) (f e) i = some d → d = val i := by
      intro i d h
      by_cases ei : i = id e
      · subst ei
        rw [insertNew_self] at h
        cases hx : m (id e) with
        | none => rw [hx] at h; simp at h; rw [← h]; exact hf e (by simp)
        | some y => rw [hx] at h; simp at h; rw [← h]; exact hm _ _ hx
      · rw [insertNew_ne _ _ _ _ ei] at h; exact hm i d h
    have := ih (insertNew m (id e) (f e)) (fun x hx => hf x (by simp [hx])) hs
    refine ⟨fun x hx => ?_, fun i d h => ?_, this.2.2⟩
    · rcases List.mem_cons.1 hx with rfl | hx
      · have h1 := insertNew_self m (id x) (f x)
        have h2 := hs _ _ h1
        rw [h2] at h1
        exact this.2.1 _ _ h1
      · exact this.1 x hx
    · exact this.2.1 _ _ (insertNew_of_some _ _ _ _ _ h)

/-! ### Storing -/

theorem store_notMem (v : Nat → K) (ix : List Nat) (d : List K) (i : Nat) (h : i ∉ ix) : store v ix d i = v i := by
  unfold store
  induction ix generalizing d v with
  | nil => simp
  | cons a ix ih =>
    cases d with
    | nil => simp
    | cons b d =>
      simp only [List.zip_cons_cons, List.foldl_cons]
      rw [ih _ _ (by simp at h; exact h.2)]
      simp at h
      simp [h.1]

theorem store_map (v : Nat → K) (ix : List Nat) (d : List K) (hn : ix.Nodup) (hl : d.length = ix.length) :
    ix.map (store v ix d) = d := by
  induction ix generalizing d v with
  | nil => cases d <;> simp_all
  | cons a ix ih =>
    cases d with
    | nil => simp at hl
    | cons b d =>
      have hn' := List.nodup_cons.1 hn
      have e : store v (a :: ix) (b :: d) = store (fun i => if i = a then b else v i) ix d := rfl
      rw [e, List.map_cons, ih _ _ hn'.2 (by simpa using hl), store_notMem _ _ _ _ hn'.1]
      simp

theorem store_zero_of [Zero K] (v : Nat → K) (ix : List Nat) (d : List K) (i : Nat) (h : i ∉ ix) (hv : v i = 0) : store v ix d i = 0 := by
  rw [store_notMem _ _ _ _ h, hv]

/-- Reading a map that has all the values. -/
theorem read_all (id : E → I) (s : Space E) (p : Nat) (m : DofMap I K) (val : I → List K) (l : List E) (v : Nat → K)
    (hm : ∀ e ∈ l, m (id e) = some (val (id e))) (hl : ∀ e ∈ l, (val (id e)).length = (s.dofs p e).length)
    (hn : ∀ e ∈ l, (s.dofs p e).Nodup) (hd : ∀ e ∈ l, ∀ e' ∈ l, e ≠ e' → ∀ i ∈ s.dofs p e, i ∉ s.dofs p e') :
    ∃ w, l.foldlM (readStep id s p m) v = some w ∧ (∀ e ∈ l, (s.dofs p e).map w = val (id e)) ∧
      (∀ i, (∀ e ∈ l, i ∉ s.dofs p e) → w i = v i) := by
  induction l using List.reverseRecOn generalizing v with
  | nil => exact ⟨v, rfl, by simp, fun _ _ => rfl⟩
  | append_singleton l e ih =>
    obtain ⟨w, hw, h1, h2⟩ := ih v (fun x hx => hm x (by simp [hx])) (fun x hx => hl x (by simp [hx])) (fun x hx => hn x (by simp [hx]))
      (fun x hx y hy => hd x (by simp [hx]) y (by simp [hy]))
    have hme := hm e (by simp)
    have hle := hl e (by simp)
    refine ⟨store w (s.dofs p e) (val (id e)), ?_, fun x hx => ?_, fun i hi => ?_⟩
    · rw [List.foldlM_append, hw]
      change (readStep id s p m w e >>= fun a => pure a) = _
      unfold readStep
      simp [hme, hle]
    · by_cases ex : x = e
      · subst ex
        exact store_map _ _ _ (hn x (by simp)) hle
      · have hx' : x ∈ l := by
          rcases List.mem_append.1 hx with h | h
          · exact h
          · exact absurd (List.mem_singleton.1 h) ex
        rw [← h1 x hx']
        refine List.map_congr_left fun i hi => ?_
        exact store_notMem _ _ _ _ (hd x hx e (by simp) ex i hi)
    · rw [store_notMem _ _ _ _ (hi e (by simp))]
      exact h2 i fun x hx => hi x (by simp [hx])

/-! ### Messages -/

theorem read_append (c : Codec Byte K) (a : K) (buf : List Byte) : read c (c.enc a ++ buf) = .ok (a, buf) := by
  unfold DataHandle.read
  rw [if_neg (by rw [List.length_append, c.len]; omega)]
  have h := c.len a
  rw [← h, List.take_left, List.drop_left, c.dec_enc]

theorem write_fold (c : Codec Byte K) (d : List K) (buf : List Byte) : d.foldl (write c) buf = buf ++ d.flatMap c.enc := by
  induction d generalizing buf with
  | nil => simp
  | cons a d ih => rw [List.foldl_cons, ih]; simp [write, List.append_assoc]

theorem readDofs_append (F : Field Byte K) (d : List K) (buf : List Byte) :
    readDofs F d.length (d.flatMap F.codec.enc ++ buf) = some (d, buf) := by
  induction d with
  | nil => rfl
  | cons a d ih =>
    rw [List.flatMap_cons, List.append_assoc, List.length_cons, readDofs, read_append]
    simp only [Except.toOption, Option.bind_eq_bind, Option.bind_some]
    rw [ih]
    rfl

/-- What is written for one vector. -/
def chunk (F : Field Byte K) (id : E → I) (p : Nat) (e : E) (codim : Nat) (x : Entry E I K) : List Byte :=
  if x.space.hasDOFs codim then
    let d := if x.space.contains p e then (x.map (id e)).getD [] else []
    F.codec.enc (F.ofSize d.length) ++ d.flatMap F.codec.enc
  else []

theorem gather_eq (F : Field Byte K) (id : E → I) (p : Nat) (e : E) (codim : Nat) (xs : List (Entry E I K)) (buf : List Byte)
    (h : ∀ x ∈ xs, x.space.hasDOFs codim = true → x.space.contains p e = true → ∃ d, x.map (id e) = some d) :
    gather F id p e codim xs buf = some (buf ++ xs.flatMap (chunk F id p e codim)) := by
  induction xs generalizing buf with
  | nil => simp [gather]
  | cons x xs ih =>
    have ih' := fun b => ih b fun y hy => h y (by simp [hy])
    unfold gather
    by_cases h1 : x.space.hasDOFs codim = true
    · by_cases h2 : x.space.contains p e = true
      · obtain ⟨d, hd⟩ := h x (by simp) h1 h2
        simp only [h1, h2, hd, if_true, Option.map_some, Option.bind_eq_bind, Option.bind_some]
        rw [ih', write_fold]
        simp [chunk, h1, h2, hd, write]
      · simp only [h1, h2, if_true, Option.bind_eq_bind, Option.bind_some, Bool.false_eq_true, if_false]
        rw [ih']
        simp [chunk, h1, h2, write]
    · simp only [h1, Option.bind_eq_bind, Option.bind_some, Bool.false_eq_true, if_false]
      rw [ih']
      simp [chunk, h1]

theorem size_eq (F : Field Byte K) (id : E → I) (p : Nat) (e : E) (codim : Nat) (xs : List (Entry E I K))
    (h : ∀ x ∈ xs, x.space.hasDOFs codim = true → x.space.contains p e = true → ∃ d, x.map (id e) = some d) :
    size F id p e codim xs = some (xs.flatMap (chunk F id p e codim)).length := by
  have hl : ∀ d : List K, (d.flatMap F.codec.enc).length = d.length * F.codec.size := by
    intro d
    induction d with
    | nil => simp
    | cons a d ih => rw [List.flatMap_cons, List.length_append, ih, F.codec.len, List.length_cons, Nat.add_mul, Nat.one_mul, Nat.add_comm]
  induction xs with
  | nil => simp [size]
  | cons x xs ih =>
    have ih' := ih fun y hy => h y (by simp [hy])
    unfold size
    rw [ih']
    by_cases h1 : x.space.hasDOFs codim = true
    · by_cases h2 : x.space.contains p e = true
      · obtain ⟨d, hd⟩ := h x (by simp) h1 h2
        have hc : (chunk F id p e codim x).length = F.codec.size + d.length * F.codec.size := by
          unfold chunk
          simp only [h1, h2, hd, if_true, Option.getD_some, List.length_append, F.codec.len, hl]
        rw [List.flatMap_cons, List.length_append, hc]
        simp [h1, h2, hd]
      · simp [chunk, h1, h2, F.codec.len]
    · simp [chunk, h1]

/-- What a message does to one map. -/
def received (id : E → I) (e : E) (codim src : Nat) (sp : Space E) (mFrom mTo : DofMap I K) : DofMap I K :=
  if sp.hasDOFs codim then insertNew mTo (id e) (if sp.contains src e then (mFrom (id e)).getD [] else []) else mTo

theorem scatter_eq (F : Field Byte K) (id : E → I) (src : Nat) (e : E) (codim : Nat) (xs : List (Space E × DofMap I K × DofMap I K))
    (hz : F.toSize (F.ofSize 0) = 0)
    (h : ∀ x ∈ xs, x.1.hasDOFs codim = true → x.1.contains src e = true →
      ∃ d, x.2.1 (id e) = some d ∧ F.toSize (F.ofSize d.length) = d.length) :
    scatter F id e codim (xs.map fun x => ⟨x.1, x.2.2⟩) ((xs.map fun x => (⟨x.1, x.2.1⟩ : Entry E I K)).flatMap (chunk F id src e codim)) =
      some (xs.map fun x => received id e codim src x.1 x.2.1 x.2.2, []) := by
  suffices H : ∀ rest, scatter F id e codim (xs.map fun x => ⟨x.1, x.2.2⟩)
      ((xs.map fun x => (⟨x.1, x.2.1⟩ : Entry E I K)).flatMap (chunk F id src e codim) ++ rest) =
      some (xs.map fun x => received id e codim src x.1 x.2.1 x.2.2, rest) by simpa using H []
  intro rest
  induction xs with
  | nil => simp [scatter]
  | cons x xs ih =>
    have ih' := ih fun y hy => h y (by simp [hy])
    simp only [List.map_cons, List.flatMap_cons, List.append_assoc]
    unfold scatter
    by_cases h1 : x.1.hasDOFs codim = true
    · obtain ⟨d, hd, hs⟩ : ∃ d, (if x.1.contains src e then (x.2.1 (id e)).getD [] else []) = d ∧
          F.toSize (F.ofSize d.length) = d.length := by
        by_cases h2 : x.1.contains src e = true
        · obtain ⟨d, hd, hs⟩ := h x (by simp) h1 h2
          exact ⟨d, by simp [h2, hd], hs⟩
        · exact ⟨[], by simp [h2], hz⟩
      have hc : chunk F id src e codim ⟨x.1, x.2.1⟩ = F.codec.enc (F.ofSize d.length) ++ d.flatMap F.codec.enc := by
        unfold chunk
        simp only [h1, if_true]
        rw [hd]
      rw [hc, List.append_assoc, read_append]
      simp only [h1, if_true, Except.toOption, Option.bind_eq_bind, Option.bind_some, hs]
      rw [readDofs_append]
      simp only [Option.bind_some]
      rw [ih']
      simp [received, h1, hd]
    · have hc : chunk F id src e codim ⟨x.1, x.2.1⟩ = [] := by unfold chunk; simp [h1]
      rw [hc, List.nil_append]
      simp only [h1, Option.bind_eq_bind, Option.bind_some, Bool.false_eq_true, if_false]
      rw [ih']
      simp [received, h1]

theorem setMaps_eq (s : State E I K) (p : Nat) (f : Nat → Nat → DofMap I K) (l : List (Nat × Nat)) :
    (setMaps s p l (l.map fun x => f x.1 x.2)).space = s.space ∧ (setMaps s p l (l.map fun x => f x.1 x.2)).vec = s.vec ∧
    ∀ k j q, (setMaps s p l (l.map fun x => f x.1 x.2)).map k j q = if (k, j) ∈ l ∧ q = p then f k j else s.map k j q := by
  induction l generalizing s with
  | nil => simp [setMaps]
  | cons x l ih =>
    simp only [List.map_cons, setMaps]
    obtain ⟨h1, h2, h3⟩ := ih { s with map := fun k j q => if k = x.1 ∧ j = x.2 ∧ q = p then f x.1 x.2 else s.map k j q }
    refine ⟨h1, h2, fun k j q => ?_⟩
    rw [h3]
    by_cases e1 : (k, j) ∈ l ∧ q = p
    · rw [if_pos e1, if_pos ⟨by simp [e1.1], e1.2⟩]
    · rw [if_neg e1]
      by_cases e2 : k = x.1 ∧ j = x.2 ∧ q = p
      · obtain ⟨rfl, rfl, rfl⟩ := e2
        simp
      · simp only [if_neg e2]
        rw [if_neg]
        rintro ⟨h, rfl⟩
        rcases List.mem_cons.1 h with h | h
        · rw [← h] at e2; simp at e2
        · exact e1 ⟨h, rfl⟩

theorem transfer_eq (F : Field Byte K) (id : E → I) (tuple : List (Nat × Nat)) (s : State E I K) (t : Transfer E)
    (hz : F.toSize (F.ofSize 0) = 0)
    (h : ∀ k j, (k, j) ∈ tuple → (s.space k).hasDOFs t.codim = true → (s.space k).contains t.src t.entity = true →
      ∃ d, s.map k j t.src (id t.entity) = some d ∧ F.toSize (F.ofSize d.length) = d.length) :
    ∃ s', transfer F id tuple s t = some s' ∧ s'.space = s.space ∧ s'.vec = s.vec ∧
      ∀ k j q, s'.map k j q = if (k, j) ∈ tuple ∧ q = t.dst then
        received id t.entity t.codim t.src (s.space k) (s.map k j t.src) (s.map k j t.dst) else s.map k j q := by
  have hg := gather_eq F id t.src t.entity t.codim (entries s tuple t.src) [] (by
    intro x hx h1 h2
    obtain ⟨y, hy, rfl⟩ := List.mem_map.1 hx
    obtain ⟨d, hd, _⟩ := h y.1 y.2 hy h1 h2
    exact ⟨d, hd⟩)
  have hsc := scatter_eq F id t.src t.entity t.codim (tuple.map fun x => (s.space x.1, s.map x.1 x.2 t.src, s.map x.1 x.2 t.dst)) hz (by
    intro x hx h1 h2
    obtain ⟨y, hy, rfl⟩ := List.mem_map.1 hx
    exact h y.1 y.2 hy h1 h2)
  rw [List.map_map, List.map_map, List.map_map] at hsc
  have := setMaps_eq s t.dst (fun k j => received id t.entity t.codim t.src (s.space k) (s.map k j t.src) (s.map k j t.dst)) tuple
  refine ⟨_, ?_, this⟩
  unfold transfer
  rw [hg]
  simp only [List.nil_append, Option.bind_eq_bind, Option.bind_some]
  unfold entries at hg ⊢
  have e1 : ((fun x : Space E × DofMap I K × DofMap I K => (⟨x.1, x.2.2⟩ : Entry E I K)) ∘
      fun x : Nat × Nat => (s.space x.1, s.map x.1 x.2 t.src, s.map x.1 x.2 t.dst)) = fun x => ⟨s.space x.1, s.map x.1 x.2 t.dst⟩ := rfl
  have e2 : ((fun x : Space E × DofMap I K × DofMap I K => (⟨x.1, x.2.1⟩ : Entry E I K)) ∘
      fun x : Nat × Nat => (s.space x.1, s.map x.1 x.2 t.src, s.map x.1 x.2 t.dst)) = fun x => ⟨s.space x.1, s.map x.1 x.2 t.src⟩ := rfl
  rw [e1, e2] at hsc
  rw [hsc]
  rfl

/-! ### All messages -/

/-- The invariant of the communication, for one vector: entries of entities that were interior or border entities of the process stay what they were; an
entry with the id of one of the entities after load balancing is right. -/
structure MapInv (id : E → I) (dim procs : Nat) (old new : Space E) (val : I → List K) (m : Nat → DofMap I K) : Prop where
  keep : ∀ p < procs, ∀ e ∈ visited old p dim, m p (id e) = some (val (id e))
  right : ∀ p < procs, ∀ e ∈ visited new p dim, ∀ d, m p (id e) = some d → d = val (id e)

theorem transfers_eq (F : Field Byte K) (id : E → I) (dim procs : Nat) (tuple : List (Nat × Nat)) (old new : Nat → Space E)
    (val : Nat → Nat → I → List K) (hz : F.toSize (F.ofSize 0) = 0)
    (hs : ∀ k j, (k, j) ∈ tuple → ∀ i, F.toSize (F.ofSize (val k j i).length) = (val k j i).length)
    (ts : List (Transfer E))
    (hsent : ∀ k j, (k, j) ∈ tuple → ∀ t ∈ ts, (old k).hasDOFs t.codim = true → (old k).contains t.src t.entity = true →
      t.src < procs ∧ t.codim ≤ dim ∧ t.entity ∈ (old k).interiorBorder t.src t.codim)
    (hother : ∀ k j, (k, j) ∈ tuple → ∀ t ∈ ts, (old k).hasDOFs t.codim = true → (old k).contains t.src t.entity = false →
      ∀ e ∈ visited (new k) t.dst dim, id e ≠ id t.entity)
    (s : State E I K) (hsp : s.space = old) (hinv : ∀ k j, (k, j) ∈ tuple → MapInv id dim procs (old k) (new k) (val k j) (s.map k j)) :
    ∃ s', ts.foldlM (transfer F id tuple) s = some s' ∧ s'.space = s.space ∧ s'.vec = s.vec ∧
      (∀ k j, (k, j) ∈ tuple → MapInv id dim procs (old k) (new k) (val k j) (s'.map k j)) ∧
      (∀ k j, (k, j) ∈ tuple → ∀ p i d, s.map k j p i = some d → s'.map k j p i = some d) ∧
      ∀ k j, (k, j) ∈ tuple → ∀ t ∈ ts, (old k).hasDOFs t.codim = true → (s'.map k j t.dst (id t.entity)).isSome = true := by
  induction ts generalizing s with
  | nil => exact ⟨s, rfl, rfl, rfl, hinv, fun _ _ _ _ _ _ h => h, by simp⟩
  | cons t ts ih =>
    have hsrc : ∀ k j, (k, j) ∈ tuple → (old k).hasDOFs t.codim = true → (old k).contains t.src t.entity = true →
        s.map k j t.src (id t.entity) = some (val k j (id t.entity)) := by
      intro k j hk h1 h2
      obtain ⟨hq, hc, he⟩ := hsent k j hk t (by simp) h1 h2
      exact (hinv k j hk).keep t.src hq t.entity ((mem_visited _ _ _ _).2 ⟨_, hc, h1, he⟩)
    obtain ⟨s1, e1, hsp1, hv1, hm1⟩ := transfer_eq F id tuple s t hz (by
      intro k j hk h1 h2
      rw [hsp] at h1 h2
      exact ⟨_, hsrc k j hk h1 h2, hs k j hk _⟩)
    have hpers : ∀ k j, (k, j) ∈ tuple → ∀ p i d, s.map k j p i = some d → s1.map k j p i = some d := by
      intro k j hk p i d h
      rw [hm1]
      split
      · rename_i hc
        unfold received
        split
        · rw [← hc.2] ; exact insertNew_of_some _ _ _ _ _ h
        · rw [← hc.2]; exact h
      · exact h
    have hinv1 : ∀ k j, (k, j) ∈ tuple → MapInv id dim procs (old k) (new k) (val k j) (s1.map k j) := by
      intro k j hk
      refine ⟨fun p hq e he => hpers k j hk _ _ _ ((hinv k j hk).keep p hq e he), fun p hq e he d h => ?_⟩
      rw [hm1] at h
      split at h
      · rename_i hc
        unfold received at h
        rw [hsp] at h
        split at h
        · rename_i h1
          by_cases hi : id e = id t.entity
          · rw [hi, insertNew_self] at h
            cases hx : s.map k j t.dst (id t.entity) with
            | some y =>
              rw [hx] at h
              simp only [Option.getD_some, Option.some.injEq] at h
              rw [← h]
              exact (hinv k j hk).right p hq e he y (by rw [hi, hc.2]; exact hx)
            | none =>
              rw [hx] at h
              simp only [Option.getD_none, Option.some.injEq] at h
              by_cases h2 : (old k).contains t.src t.entity = true
              · rw [if_pos h2, hsrc k j hk h1 h2] at h
                rw [← h, hi]
                rfl
              · exact absurd hi (hother k j hk t (by simp) h1 (by simpa using h2) e (by rw [← hc.2]; exact he))
          · rw [insertNew_ne _ _ _ _ hi] at h
            exact (hinv k j hk).right p hq e he d (by rw [hc.2]; exact h)
        · exact (hinv k j hk).right p hq e he d (by rw [hc.2]; exact h)
      · exact (hinv k j hk).right p hq e he d h
    obtain ⟨s2, e2, hsp2, hv2, hi2, hp2, hc2⟩ := ih (fun k j hk x hx => hsent k j hk x (by simp [hx]))
      (fun k j hk x hx => hother k j hk x (by simp [hx])) s1 (hsp1.trans hsp) hinv1
    refine ⟨s2, ?_, hsp2.trans hsp1, hv2.trans hv1, hi2, fun k j hk p i d h => hp2 k j hk p i d (hpers k j hk p i d h), ?_⟩
    · rw [List.foldlM_cons, e1]; exact e2
    · intro k j hk x hx h1
      rcases List.mem_cons.1 hx with rfl | hx
      · have : s1.map k j x.dst (id x.entity) = some ((s.map k j x.dst (id x.entity)).getD
            (if (old k).contains x.src x.entity then (s.map k j x.src (id x.entity)).getD [] else [])) := by
          rw [hm1, if_pos ⟨hk, rfl⟩, hsp]
          unfold received
          rw [if_pos h1, insertNew_self]
        rw [hp2 k j hk _ _ _ this]
        rfl
      · exact hc2 k j hk x hx h1

/-! ### The order of the operations -/

/-- The vectors of packs `k`, `k + 1`, … in order. -/
def pairs (k : Nat) : List Nat → List (Nat × Nat)
  | [] => []
  | n :: rest => (List.range' 0 n).map (fun j => (k, j)) ++ pairs (k + 1) rest

/-- What is done on the way back. -/
def back (k : Nat) : List Nat → List Op
  | [] => []
  | n :: rest => back (k + 1) rest ++ ([.update k] ++ ((List.range' 0 n).map fun j => Op.restore k j).reverse)

theorem iterateTuple_shape (k j : Nat) (tuple : List (Nat × Nat)) (next : List (Nat × Nat) → List Op) (n : Nat) :
    iterateTuple k next j tuple n = (List.range' j n).map (fun j => Op.fill k j) ++
      (next (tuple ++ (List.range' j n).map fun j => (k, j)) ++
        ([.update k] ++ ((List.range' j n).map fun j => Op.restore k j).reverse)) := by
  induction n generalizing j tuple with
  | zero => simp [iterateTuple]
  | succ n ih =>
    rw [iterateTuple, ih]
    simp [List.range'_succ, List.append_assoc]

theorem iteratePacks_shape (k : Nat) (tuple : List (Nat × Nat)) (packs : List Nat) :
    iteratePacks packs k tuple = (pairs k packs).map (fun x => Op.fill x.1 x.2) ++ ([.balance (tuple ++ pairs k packs)] ++ back k packs) := by
  induction packs generalizing k tuple with
  | nil => simp [iteratePacks, pairs, back]
  | cons n rest ih =>
    rw [iteratePacks, iterateTuple_shape, ih]
    simp [pairs, back, List.append_assoc, Function.comp_def]

theorem mem_pairs (k : Nat) (packs : List Nat) (a b : Nat) :
    (a, b) ∈ pairs k packs ↔ k ≤ a ∧ b < packs.getD (a - k) 0 := by
  induction packs generalizing k with
  | nil => simp [pairs]
  | cons n rest ih =>
    rw [pairs, List.mem_append, ih]
    constructor
    · rintro (h | ⟨h1, h2⟩)
      · simp only [List.mem_map, List.mem_range'_1, Prod.mk.injEq] at h
        obtain ⟨j, hj, rfl, rfl⟩ := h
        simp; omega
      · refine ⟨by omega, ?_⟩
        have : a - k = (a - (k + 1)) + 1 := by omega
        rw [this, List.getD_cons_succ]
        exact h2
    · rintro ⟨h1, h2⟩
      by_cases e : a = k
      · subst e
        left
        simp at h2 ⊢
        omega
      · right
        refine ⟨by omega, ?_⟩
        have : a - k = (a - (k + 1)) + 1 := by omega
        rw [this, List.getD_cons_succ] at h2
        exact h2

section
variable [Zero K] (F : Field Byte K) (id : E → I) (dim procs : Nat) (ts : List (Transfer E)) (new : Nat → Space E)

theorem exec_fills (l : List (Nat × Nat)) (s : State E I K) :
    ∃ s', (l.map fun x => Op.fill x.1 x.2).foldlM (exec F id dim procs ts new) s = some s' ∧ s'.space = s.space ∧ s'.vec = s.vec ∧
      ∀ k j p, s'.map k j p = if (k, j) ∈ l then fillMap id (s.space k) p (s.vec k j p) dim (fun _ => none) else s.map k j p := by
  induction l generalizing s with
  | nil => exact ⟨s, rfl, rfl, rfl, by simp⟩
  | cons x l ih =>
    obtain ⟨s', h1, h2, h3, h4⟩ := ih ⟨s.space, s.vec, fun k' j' p =>
      if k' = x.1 ∧ j' = x.2 then fillMap id (s.space x.1) p (s.vec x.1 x.2 p) dim (fun _ => none) else s.map k' j' p⟩
    refine ⟨s', by rw [List.map_cons, List.foldlM_cons]; exact h1, h2, h3, fun k j p => ?_⟩
    rw [h4]
    by_cases e : (k, j) ∈ l
    · simp [e]
    · by_cases e2 : k = x.1 ∧ j = x.2
      · obtain ⟨rfl, rfl⟩ := e2; simp [e]
      · simp only [e, e2, if_false, List.mem_cons, or_false]
        rw [if_neg]
        intro h
        rw [← h] at e2
        simp at e2

theorem exec_restore (k j : Nat) (s : State E I K) (res : Nat → Nat → K)
    (h : ∀ p < procs, readMap id (s.space k) p (s.map k j p) dim (fun _ => 0) = some (res p)) :
    exec F id dim procs ts new s (.restore k j) =
      some { s with vec := fun k' j' q => if k' = k ∧ j' = j ∧ q < procs then res q else s.vec k' j' q } := by
  unfold exec
  simp only
  induction procs with
  | zero => simp
  | succ n ih =>
    rw [List.range_succ, List.foldlM_append, ih fun p hp => h p (by omega)]
    change (Option.bind _ _) = _
    simp only [Option.bind_some, List.foldlM_cons, List.foldlM_nil]
    rw [h n (by omega)]
    simp only [Option.map_some]
    change some (_ : State E I K) = some _
    congr 1
    congr 1
    funext k' j' q
    by_cases e : k' = k ∧ j' = j
    · obtain ⟨rfl, rfl⟩ := e
      by_cases e2 : q = n
      · subst e2; simp
      · by_cases e3 : q < n
        · simp [e2, e3, Nat.lt_succ_of_lt e3]
        · have : ¬ q < n + 1 := by omega
          simp [e2, e3, this]
    · have e4 : ¬ (k' = k ∧ j' = j ∧ q = n) := fun h => e ⟨h.1, h.2.1⟩
      have e5 : ¬ (k' = k ∧ j' = j ∧ q < n) := fun h => e ⟨h.1, h.2.1⟩
      have e6 : ¬ (k' = k ∧ j' = j ∧ q < n + 1) := fun h => e ⟨h.1, h.2.1⟩
      simp only [e4, e5, e6, if_false]

theorem exec_restores (k : Nat) (l : List Nat) (s : State E I K) (res : Nat → Nat → Nat → K)
    (h : ∀ j ∈ l, ∀ p < procs, readMap id (s.space k) p (s.map k j p) dim (fun _ => 0) = some (res j p)) :
    (l.map fun j => Op.restore k j).foldlM (exec F id dim procs ts new) s =
      some { s with vec := fun k' j' q => if k' = k ∧ j' ∈ l ∧ q < procs then res j' q else s.vec k' j' q } := by
  induction l generalizing s with
  | nil => simp
  | cons j l ih =>
    rw [List.map_cons, List.foldlM_cons, exec_restore F id dim procs ts new k j s (res j) (h j (by simp))]
    change (Option.bind _ _) = _
    simp only [Option.bind_some]
    refine (ih ⟨s.space, fun k' j' q => if k' = k ∧ j' = j ∧ q < procs then res j q else s.vec k' j' q, s.map⟩
      fun j' hj => h j' (by simp [hj])).trans ?_
    congr 1
    congr 1
    funext k' j' q
    by_cases e1 : k' = k ∧ q < procs
    · obtain ⟨rfl, hq⟩ := e1
      by_cases e2 : j' = j
      · subst e2; simp [hq]
      · by_cases e3 : j' ∈ l <;> simp [e2, e3, hq]
    · have n1 : ∀ P : Prop, ¬ (k' = k ∧ P ∧ q < procs) := fun P h => e1 ⟨h.1, h.2.2⟩
      simp only [n1, if_false]

theorem exec_back (packs : List Nat) (k : Nat) (s : State E I K) (res : Nat → Nat → Nat → Nat → K)
    (h : ∀ k' j, (k', j) ∈ pairs k packs → ∀ p < procs, readMap id (new k') p (s.map k' j p) dim (fun _ => 0) = some (res k' j p)) :
    ∃ s', (back k packs).foldlM (exec F id dim procs ts new) s = some s' ∧ s'.map = s.map ∧
      (∀ k', s'.space k' = if k ≤ k' ∧ k' < k + packs.length then new k' else s.space k') ∧
      ∀ k' j p, s'.vec k' j p = if (k', j) ∈ pairs k packs ∧ p < procs then res k' j p else s.vec k' j p := by
  induction packs generalizing k with
  | nil => exact ⟨s, rfl, rfl, fun k' => by simp; omega, by simp [pairs]⟩
  | cons n rest ih =>
    obtain ⟨s1, h1, h2, h3, h4⟩ := ih (k + 1) fun k' j hk => h k' j (by simp [pairs, hk])
    have hres := exec_restores F id dim procs ts new k (List.range' 0 n).reverse
      { s1 with space := fun k' => if k' = k then new k else s1.space k' } (res k) (by
        intro j hj p hp
        simp only [if_true]
        rw [h2]
        refine h k j ?_ p hp
        rw [pairs]
        exact List.mem_append_left _ (List.mem_map.2 ⟨j, List.mem_reverse.1 hj, rfl⟩))
    have hrun : (back k (n :: rest)).foldlM (exec F id dim procs ts new) s =
        (((List.range' 0 n).reverse.map fun j => Op.restore k j).foldlM (exec F id dim procs ts new)
          { s1 with space := fun k' => if k' = k then new k else s1.space k' }) := by
      rw [back, List.foldlM_append, h1]
      change (Option.bind (some s1) _) = _
      rw [Option.bind_some, List.foldlM_append]
      change (Option.bind (some _) _) = _
      rw [Option.bind_some, ← List.map_reverse]
    refine ⟨_, hrun.trans hres, ?_, ?_, ?_⟩
    · exact h2
    · intro k'
      simp only
      by_cases e : k' = k
      · subst e; simp
      · rw [if_neg e, h3]
        have : (k + 1 ≤ k' ∧ k' < k + 1 + rest.length) ↔ (k ≤ k' ∧ k' < k + (n :: rest).length) := by
          simp only [List.length_cons]; omega
        simp only [this]
    · intro k' j p
      simp only
      by_cases e : k' = k
      · subst e
        have hn : ∀ j, (k', j) ∉ pairs (k' + 1) rest := fun j hj => by
          have := ((mem_pairs _ _ _ _).1 hj).1; omega
        simp only [true_and, pairs, List.mem_append, hn, or_false, h4, false_and, if_false]
        simp
      · have hn : (k', j) ∉ (List.range' 0 n).map fun j => (k, j) := by
          intro hj
          obtain ⟨a, _, ha⟩ := List.mem_map.1 hj
          injection ha with h5 h6
          exact e h5.symm
        simp only [e, false_and, if_false, pairs, List.mem_append, hn, false_or]
        exact h4 k' j p

end

end Verif.LoadBalance
