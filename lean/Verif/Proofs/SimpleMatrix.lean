import Verif.Spec.SimpleMatrix
import Verif.Proofs.ListAux
import Mathlib.Data.List.Nodup
import Mathlib.Data.Finset.Card
import Mathlib.Algebra.BigOperators.Ring.Finset
import Mathlib.Algebra.BigOperators.Group.Finset.Piecewise

namespace Verif.SimpleMatrix
open ListAux

/-- Columns of row `r` in the order in which they are stored. -/
def srow (P : List (List Nat)) (r : Nat) : List Nat :=
  ((P[r]?).getD []).mergeSort (fun a b => decide (a ≤ b))

theorem mem_srow (P : List (List Nat)) (r c : Nat) : c ∈ srow P r ↔ ∃ row, P[r]? = some row ∧ c ∈ row := by
  unfold srow
  rw [List.mem_mergeSort]
  cases h : P[r]? with
  | none => simp
  | some row => simp

theorem srow_sorted (P : List (List Nat)) (hP : ∀ row ∈ P, row.Nodup) (r : Nat) :
    (srow P r).Pairwise (· < ·) := by
  have h1 : (srow P r).Pairwise (fun a b => decide (a ≤ b) = true) := by
    apply List.pairwise_mergeSort
    · intro a b c; simp; omega
    · intro a b; simp; omega
  have h2 : (srow P r).Nodup := by
    unfold srow
    rw [(List.mergeSort_perm _ _).nodup_iff]
    cases h : P[r]? with
    | none => simp
    | some row => simpa using hP row (List.mem_of_getElem? h)
  have := List.Pairwise.and h1 h2
  refine List.Pairwise.imp ?_ this
  intro a b hab
  have := hab.1; simp at this
  omega

theorem srow_length (P : List (List Nat)) (r : Nat) : (srow P r).length = ((P[r]?).getD []).length := by
  unfold srow; exact List.length_mergeSort _

theorem srow_cons_succ (row : List Nat) (P : List (List Nat)) (r : Nat) :
    srow (row :: P) (r + 1) = srow P r := by simp [srow]

theorem flatMap_srow (P : List (List Nat)) :
    P.flatMap (fun row => row.mergeSort (fun a b => decide (a ≤ b)))
      = (List.range P.length).flatMap (srow P) := by
  induction P with
  | nil => rfl
  | cons row P ih =>
    rw [List.flatMap_cons, ih, List.length_cons, List.range_succ_eq_map, List.flatMap_cons,
      List.flatMap_map]
    congr 1

theorem pre_srow_cons (row : List Nat) (P : List (List Nat)) (r : Nat) :
    pre (srow (row :: P)) (r + 1) = row.length + pre (srow P) r := by
  induction r with
  | zero => simp [pre, srow]
  | succ r ih =>
    rw [pre, ih, srow_cons_succ, Nat.add_assoc]; rfl

theorem offsets_eq (P : List (List Nat)) (o : Nat) :
    offsets o P = (List.range P.length).map (fun r => o + pre (srow P) (r + 1)) := by
  induction P generalizing o with
  | nil => rfl
  | cons row P ih =>
    rw [offsets, ih, List.length_cons, List.range_succ_eq_map]
    simp only [List.map_cons, List.map_map]
    congr 1
    · simp [pre, srow]
    · apply List.map_congr_left
      intro r _
      simp only [Function.comp_apply, Nat.succ_eq_add_one]
      rw [pre_srow_cons]; omega

theorem rowoffset_eq (P : List (List Nat)) :
    0 :: offsets 0 P = (List.range (P.length + 1)).map (pre (srow P)) := by
  rw [offsets_eq, List.range_succ_eq_map, List.map_cons, List.map_map]
  congr 1
  apply List.map_congr_left
  intro r _
  simp

/-! ### lower_bound -/

theorem lb_mem {l : List Nat} (hs : l.Pairwise (· < ·)) {c : Nat} (hc : c ∈ l) :
    l[lowerBoundIdx c l]? = some c := by
  induction l with
  | nil => simp at hc
  | cons k ks ih =>
    have h := List.pairwise_cons.1 hs
    simp only [lowerBoundIdx]
    rcases List.mem_cons.1 hc with rfl | hc
    · simp
    · have := h.1 c hc
      simp only [this, if_true, List.getElem?_cons_succ]
      exact ih h.2 hc

theorem lb_lt_iff (l : List Nat) (c : Nat) :
    lowerBoundIdx c l < l.length ↔ ∃ x ∈ l, c ≤ x := by
  induction l with
  | nil => simp [lowerBoundIdx]
  | cons k ks ih =>
    simp only [lowerBoundIdx]
    split
    · rename_i h
      simp only [List.length_cons, Nat.add_lt_add_iff_right, ih, List.mem_cons]
      constructor
      · rintro ⟨x, hx, hc⟩; exact ⟨x, Or.inr hx, hc⟩
      · rintro ⟨x, rfl | hx, hc⟩
        · omega
        · exact ⟨x, hx, hc⟩
    · rename_i h
      simp
      left; omega

theorem lb_mem_lt {l : List Nat} {c : Nat} (hc : c ∈ l) : lowerBoundIdx c l < l.length :=
  (lb_lt_iff l c).2 ⟨c, hc, le_refl _⟩

theorem map_set_lb {α : Type} {l : List Nat} (hs : l.Pairwise (· < ·)) {c : Nat} (hc : c ∈ l)
    (f : Nat → α) (v : α) :
    (l.map f).set (lowerBoundIdx c l) v = l.map (fun x => if x = c then v else f x) := by
  induction l with
  | nil => simp at hc
  | cons k ks ih =>
    have h := List.pairwise_cons.1 hs
    simp only [lowerBoundIdx]
    rcases List.mem_cons.1 hc with rfl | hc
    · simp
      intro a ha h'
      have := h.1 a ha; omega
    · have h1 := h.1 c hc
      have h2 : k ≠ c := by omega
      simp [h1, h2, ih h.2 hc]

/-! ### The refinement invariant -/

structure CInv {α : Type} [Zero α] (cols : Nat) (P : List (List Nat)) (A : Csr α) (M : Nat → Nat → α) : Prop where
  hrows : A.rows = P.length
  hcols : A.cols = cols
  hnnz : A.nonZeros = pre (srow P) P.length
  hcol : A.colindex = (List.range P.length).flatMap (srow P)
  hro : A.rowoffset = (List.range (P.length + 1)).map (pre (srow P))
  hdata : A.data = (List.range P.length).flatMap (fun r => (srow P r).map (M r))
  hzero : ∀ r c, c ∉ srow P r → M r c = 0

theorem pre_map {α : Type} (P : List (List Nat)) (M : Nat → Nat → α) (r : Nat) :
    pre (fun r => (srow P r).map (M r)) r = pre (srow P) r :=
  pre_congr _ _ _ (fun _ _ => by simp)

variable {α : Type}

theorem CInv.ro_get [Zero α] {cols : Nat} {P : List (List Nat)} {A : Csr α} {M : Nat → Nat → α}
    (h : CInv cols P A M) {r : Nat} (hr : r ≤ P.length) : A.rowoffset[r]? = some (pre (srow P) r) := by
  rw [h.hro, List.getElem?_map, List.getElem?_range (by omega)]; rfl

theorem CInv.find_eq [Zero α] {cols : Nat} {P : List (List Nat)} {A : Csr α} {M : Nat → Nat → α}
    (h : CInv cols P A M) {r : Nat} (hr : r < P.length) (c : Nat) :
    A.find r c = if lowerBoundIdx c (srow P r) < (srow P r).length
      then some (pre (srow P) r + lowerBoundIdx c (srow P r)) else none := by
  have h1 : pre (srow P) (r + 1) - pre (srow P) r = (srow P r).length := by simp [pre]
  simp only [Csr.find, h.ro_get (Nat.le_of_lt hr), h.ro_get (r := r + 1) hr, Option.bind_some, h1, h.hcol,
    slice_flatMap (srow P) _ r hr]

theorem CInv.find_mem [Zero α] {cols : Nat} {P : List (List Nat)} {A : Csr α} {M : Nat → Nat → α}
    (h : CInv cols P A M) {r : Nat} (hr : r < P.length) {c : Nat} (hc : c ∈ srow P r) :
    A.find r c = some (pre (srow P) r + lowerBoundIdx c (srow P r)) := by
  rw [h.find_eq hr, if_pos (lb_mem_lt hc)]

theorem CInv.data_at [Zero α] {cols : Nat} {P : List (List Nat)} {A : Csr α} {M : Nat → Nat → α}
    (h : CInv cols P A M) (hP : ∀ row ∈ P, row.Nodup) {r : Nat} (hr : r < P.length) {c : Nat}
    (hc : c ∈ srow P r) :
    A.data[pre (srow P) r + lowerBoundIdx c (srow P r)]? = some (M r c) := by
  rw [h.hdata, ← pre_map P M, getElem?_flatMap _ _ r _ hr (by simpa using lb_mem_lt hc)]
  rw [List.getElem?_map, lb_mem (srow_sorted P hP r) hc]; rfl

theorem CInv.get_mem [Zero α] {cols : Nat} {P : List (List Nat)} {A : Csr α} {M : Nat → Nat → α}
    (h : CInv cols P A M) (hP : ∀ row ∈ P, row.Nodup) {r : Nat} (hr : r < P.length) {c : Nat}
    (hc : c ∈ srow P r) : A.get r c = some (M r c) := by
  simp only [Csr.get, h.find_mem hr hc, Option.bind_some, h.data_at hP hr hc]

theorem row_lt_of_mem {P : List (List Nat)} {r c : Nat} (hc : c ∈ srow P r) : r < P.length := by
  obtain ⟨row, h, _⟩ := (mem_srow P r c).1 hc
  exact (List.getElem?_eq_some_iff.1 h).1

theorem CInv.modify [Zero α] {cols : Nat} {P : List (List Nat)} {A : Csr α} {M : Nat → Nat → α}
    (h : CInv cols P A M) (hP : ∀ row ∈ P, row.Nodup) {r c : Nat}
    (hc : c ∈ srow P r) (f : α → α) :
    ∃ A', A.modify r c f = some A' ∧
      CInv cols P A' (fun i j => if i = r ∧ j = c then f (M i j) else M i j) := by
  have hr := row_lt_of_mem hc
  refine ⟨_, by simp only [Csr.modify, h.find_mem hr hc, Option.bind_some, h.data_at hP hr hc,
    Option.map_some]; rfl, ?_⟩
  refine ⟨h.hrows, h.hcols, h.hnnz, h.hcol, h.hro, ?_, ?_⟩
  · simp only
    rw [h.hdata, ← pre_map P M, set_flatMap _ _ r _ _ hr (by simpa using lb_mem_lt hc)]
    congr 1
    funext i
    split
    · rename_i hi
      subst hi
      rw [map_set_lb (srow_sorted P hP i) hc]
      apply List.map_congr_left
      intro x _
      by_cases hx : x = c <;> simp [hx]
    · rename_i hi
      simp [hi]
  · intro i j hj
    rw [if_neg]
    · exact h.hzero i j hj
    · rintro ⟨rfl, rfl⟩; exact hj hc

theorem CInv.fillRow [Zero α] {cols : Nat} {P : List (List Nat)} {A : Csr α} {M : Nat → Nat → α}
    (h : CInv cols P A M) {r : Nat} (hr : r < P.length) :
    CInv cols P { A with data := fillRange A.data (pre (srow P) r) (pre (srow P) (r + 1)) 0 }
      (fun i j => if i = r then 0 else M i j) := by
  refine ⟨h.hrows, h.hcols, h.hnnz, h.hcol, h.hro, ?_, ?_⟩
  · have hl : A.data.length = pre (srow P) P.length := by
      rw [h.hdata, length_flatMap, pre_map]
    have hm := pre_mono (srow P) (r := r + 1) (s := P.length) hr
    have hm' : pre (srow P) (r + 1) = pre (srow P) r + (srow P r).length := rfl
    apply ext_flatMap
    · simp only [fillRange, List.length_append, List.length_take, List.length_replicate,
        List.length_drop, hl, pre_map]
      omega
    · intro i k hi hk
      rw [List.length_map] at hk
      rw [pre_map, List.getElem?_map]
      simp only [fillRange]
      have hd : A.data[pre (srow P) i + k]? = ((srow P i)[k]?).map (M i) := by
        rw [h.hdata, ← pre_map P M, getElem?_flatMap _ _ i k hi (by simpa using hk), List.getElem?_map]
      rcases Nat.lt_trichotomy i r with h1 | h1 | h1
      · have h2 := pre_mono (srow P) (r := i + 1) (s := r) h1
        simp only [pre] at h2
        rw [List.getElem?_append_left (by simp; omega), List.getElem?_append_left (by simp; omega),
          List.getElem?_take, if_pos (by omega), hd]
        simp [show i ≠ r by omega]
      · subst h1
        rw [List.getElem?_append_left (by simp; omega), List.getElem?_append_right (by simp)]
        simp only [List.length_take, hl, List.getElem?_replicate]
        rw [if_pos (by omega), List.getElem?_eq_getElem hk]
        simp
      · have h2 := pre_mono (srow P) (r := r + 1) (s := i) h1
        rw [List.getElem?_append_right (by simp; omega), List.getElem?_drop]
        simp only [List.length_append, List.length_take, List.length_replicate, hl]
        rw [show pre (srow P) (r + 1) + (pre (srow P) i + k - (min (pre (srow P) r) (pre (srow P) P.length) +
          (pre (srow P) (r + 1) - pre (srow P) r))) = pre (srow P) i + k by omega, hd]
        simp [show i ≠ r by omega]
  · intro i j hj
    split
    · rfl
    · exact h.hzero i j hj

theorem CInv.mapAll [Zero α] {cols : Nat} {P : List (List Nat)} {A : Csr α} {M : Nat → Nat → α}
    (h : CInv cols P A M) (f : α → α) (hf : f 0 = 0) :
    CInv cols P { A with data := A.data.map f } (fun i j => f (M i j)) := by
  refine ⟨h.hrows, h.hcols, h.hnnz, h.hcol, h.hro, ?_, ?_⟩
  · simp only
    rw [h.hdata, List.map_flatMap]
    congr 1
    funext r
    simp
  · intro i j hj; rw [h.hzero i j hj, hf]

theorem CInv.step [Semiring α] {cols : Nat} {P : List (List Nat)} {A : Csr α} {M : Nat → Nat → α}
    (h : CInv cols P A M) (hP : ∀ row ∈ P, row.Nodup) (op : Op α)
    (hop : op.Within fun r c => c ∈ srow P r) :
    ∃ A', A.step op = some A' ∧ CInv cols P A' (specStep M op) := by
  cases op with
  | write r c v => exact h.modify hP hop (fun _ => v)
  | add r c v => exact h.modify hP hop (fun w => w + v)
  | scale e => exact ⟨_, rfl, h.mapAll (e * ·) (by simp)⟩
  | zero => exact ⟨_, rfl, h.mapAll (fun _ => 0) rfl⟩
  | clearRow r d =>
    have hr := row_lt_of_mem hop
    obtain ⟨A', h1, h2⟩ := (h.fillRow hr).modify hP hop (fun _ => d)
    refine ⟨A', ?_, ?_⟩
    · simp only [Csr.step, Csr.clearRow, h.ro_get (Nat.le_of_lt hr), h.ro_get (r := r + 1) hr,
        Option.bind_some]
      exact h1
    · convert h2 using 1
      funext i j
      simp only [specStep]
      by_cases hi : i = r <;> by_cases hj : j = r <;> simp [hi, hj]

/-- Running a list of calls. -/
theorem CInv.steps [Semiring α] {cols : Nat} {P : List (List Nat)} (hP : ∀ row ∈ P, row.Nodup)
    (ops : List (Op α)) (hops : ∀ op ∈ ops, op.Within fun r c => c ∈ srow P r)
    {A : Csr α} {M : Nat → Nat → α} (h : CInv cols P A M) :
    ∃ A', ops.foldlM Csr.step A = some A' ∧ CInv cols P A' (ops.foldl specStep M) := by
  induction ops generalizing A M with
  | nil => exact ⟨A, rfl, h⟩
  | cons op ops ih =>
    obtain ⟨A1, h1, h2⟩ := h.step hP op (hops op (by simp))
    obtain ⟨A2, h3, h4⟩ := ih (fun o ho => hops o (by simp [ho])) h2
    exact ⟨A2, by simp [List.foldlM_cons, h1, h3], h4⟩

theorem CInv.alloc [Zero α] (cols : Nat) (P : List (List Nat)) :
    ∃ A : Csr α, allocate P.length cols P (0 : α) = some A ∧ CInv cols P A (fun _ _ => 0) := by
  refine ⟨_, by simp only [allocate, if_pos (le_refl P.length)]; rfl, ?_⟩
  have hro : 0 :: (offsets 0 P ++ List.replicate (P.length - P.length) 0)
      = (List.range (P.length + 1)).map (pre (srow P)) := by
    simp [← rowoffset_eq]
  have hl : ((List.range (P.length + 1)).map (pre (srow P))).getLast?.getD 0 = pre (srow P) P.length := by
    rw [List.range_succ, List.map_append]; simp
  refine ⟨rfl, rfl, ?_, flatMap_srow P, ?_, ?_, fun _ _ _ => rfl⟩
  · simp only; rw [hro, hl]
  · simp only; rw [hro]
  · simp only
    rw [hro, hl]
    apply ext_flatMap
    · rw [pre_map]; simp
    · intro r k hr hk
      rw [pre_map, List.getElem?_replicate]
      rw [List.length_map] at hk
      rw [if_pos (pre_add_lt _ hr hk), List.getElem?_map, List.getElem?_eq_getElem hk]
      rfl

/-! ### Products -/

theorem innerProduct_map [Semiring α] (l : List Nat) (f x : Nat → α) (init : α) :
    innerProduct init (l.map f) (l.map x) = init + (l.map fun c => f c * x c).sum := by
  induction l generalizing init with
  | nil => simp [innerProduct]
  | cons c cs ih => simp [innerProduct, ih, add_assoc]

theorem mapM_get (x : List α) (l : List Nat) (d : α) (h : ∀ c ∈ l, c < x.length) :
    l.mapM (fun c => x[c]?) = some (l.map fun c => x[c]?.getD d) := by
  induction l with
  | nil => rfl
  | cons c cs ih =>
    have hc := h c (by simp)
    simp [List.mapM_cons, ih (fun c hc => h c (by simp [hc])), List.getElem?_eq_getElem hc]

theorem sum_srow [Semiring α] {l : List Nat} (hn : l.Nodup) {cols : Nat} (hl : ∀ c ∈ l, c < cols)
    (f : Nat → α) (hf : ∀ c, c ∉ l → f c = 0) :
    (l.map f).sum = ∑ c ∈ Finset.range cols, f c := by
  rw [← List.sum_toFinset f hn]
  apply Finset.sum_subset
  · intro c hc; simp at hc ⊢; exact hl c hc
  · intro c _ hc; simp at hc; exact hf c hc

theorem CInv.rowProduct [Semiring α] {cols : Nat} {P : List (List Nat)} {A : Csr α} {M : Nat → Nat → α}
    (h : CInv cols P A M) (hP : ∀ row ∈ P, row.Nodup) (hPc : ∀ row ∈ P, ∀ c ∈ row, c < cols)
    (x : List α) (hx : x.length = cols) {r : Nat} (hr : r < P.length) :
    A.rowProduct x r = some (specMv cols M (fun c => x[c]?.getD 0) r) := by
  have h1 : pre (srow P) (r + 1) - pre (srow P) r = (srow P r).length := by simp [pre]
  have h2 : ((A.data.drop (pre (srow P) r)).take (srow P r).length) = (srow P r).map (M r) := by
    have := slice_flatMap (fun r => (srow P r).map (M r)) P.length r hr
    rw [pre_map, List.length_map] at this
    rw [h.hdata, this]
  have h3 : ∀ c ∈ srow P r, c < cols := by
    intro c hc
    obtain ⟨row, hr, hm⟩ := (mem_srow P r c).1 hc
    exact hPc row (List.mem_of_getElem? hr) c hm
  simp only [Csr.rowProduct, h.ro_get (Nat.le_of_lt hr), h.ro_get (r := r + 1) hr, Option.bind_some, h1,
    h2, h.hcol, slice_flatMap (srow P) _ r hr]
  rw [mapM_get x _ 0 (by rw [hx]; exact h3)]
  simp only [Option.map_some]
  rw [innerProduct_map, zero_add]
  unfold specMv
  rw [sum_srow ((srow_sorted P hP r).imp (fun h => Nat.ne_of_lt h)) h3]
  intro c hc
  rw [h.hzero r c hc, zero_mul]

theorem mapM_range {β : Type} (n : Nat) (f : Nat → Option β) (g : Nat → β)
    (h : ∀ r, r < n → f r = some (g r)) : (List.range n).mapM f = some ((List.range n).map g) := by
  have : ∀ l : List Nat, (∀ r ∈ l, r < n) → l.mapM f = some (l.map g) := by
    intro l hl
    induction l with
    | nil => rfl
    | cons a as ih =>
      simp [List.mapM_cons, h a (hl a (by simp)), ih (fun r hr => hl r (by simp [hr]))]
  exact this _ (fun r hr => List.mem_range.1 hr)

/-! ### Dense -/

structure DInv (rows cols : Nat) (A : Dense α) (M : Nat → Nat → α) : Prop where
  hrows : A.rows = rows
  hcols : A.cols = cols
  hdata : A.container = (List.range rows).flatMap (fun r => (List.range cols).map (M r))

theorem pre_const {β : Type} (cols : Nat) (M : Nat → Nat → β) (r : Nat) :
    pre (fun r => (List.range cols).map (M r)) r = r * cols := by
  induction r with
  | zero => simp [pre]
  | succ r ih => simp [pre, ih, Nat.add_mul]

theorem DInv.get {rows cols : Nat} {A : Dense α} {M : Nat → Nat → α} (h : DInv rows cols A M)
    {r c : Nat} (hr : r < rows) (hc : c < cols) : A.get r c = some (M r c) := by
  unfold Dense.get
  rw [h.hdata, h.hcols, ← pre_const cols M, getElem?_flatMap _ _ r c hr (by simpa using hc)]
  simp [hc]

theorem DInv.modify {rows cols : Nat} {A : Dense α} {M : Nat → Nat → α} (h : DInv rows cols A M)
    {r c : Nat} (hr : r < rows) (hc : c < cols) (f : α → α) :
    ∃ A', A.modify r c f = some A' ∧
      DInv rows cols A' (fun i j => if i = r ∧ j = c then f (M i j) else M i j) := by
  have := h.get hr hc
  unfold Dense.get at this
  refine ⟨{ A with container := A.container.set (r * A.cols + c) (f (M r c)) },
    by simp only [Dense.modify, this, Option.map_some], h.hrows, h.hcols, ?_⟩
  simp only
  rw [h.hdata, h.hcols, ← pre_const cols M, set_flatMap _ _ r _ _ hr (by simpa using hc)]
  congr 1
  funext i
  split
  · rename_i hi
    subst hi
    apply List.ext_getElem?
    intro k
    rw [List.getElem?_set]
    by_cases hk : k < cols
    · by_cases hkc : c = k
      · subst hkc; simp [hc]
      · simp [hkc, hk, Ne.symm hkc]
    · simp [hk]
      intro h'; omega
  · rename_i hi
    simp [hi]

theorem DInv.length {rows cols : Nat} {A : Dense α} {M : Nat → Nat → α} (h : DInv rows cols A M) :
    A.container.length = rows * cols := by
  rw [h.hdata, length_flatMap, pre_const]

theorem DInv.fillRow [Zero α] {rows cols : Nat} {A : Dense α} {M : Nat → Nat → α}
    (h : DInv rows cols A M) {r : Nat} (hr : r < rows) :
    DInv rows cols { A with container := fillRange A.container (r * A.cols) ((r + 1) * A.cols) 0 }
      (fun i j => if i = r then 0 else M i j) := by
  refine ⟨h.hrows, h.hcols, ?_⟩
  have hl := h.length
  have hm : (r + 1) * cols ≤ rows * cols := Nat.mul_le_mul_right _ hr
  have hm' : (r + 1) * cols = r * cols + cols := by rw [Nat.add_mul]; omega
  simp only [h.hcols]
  apply ext_flatMap
  · simp only [fillRange, List.length_append, List.length_take, List.length_replicate,
        List.length_drop, hl, pre_const]
    omega
  · intro i k hi hk
    simp only [List.length_map, List.length_range] at hk
    rw [pre_const, List.getElem?_map, List.getElem?_range hk]
    simp only [fillRange, Option.map_some]
    have hd : A.container[i * cols + k]? = some (M i k) := by
      have := h.get hi hk
      unfold Dense.get at this
      rwa [h.hcols] at this
    rcases Nat.lt_trichotomy i r with h1 | h1 | h1
    · have h2 : (i + 1) * cols ≤ r * cols := Nat.mul_le_mul_right _ h1
      rw [Nat.add_mul] at h2
      rw [List.getElem?_append_left (by simp; omega), List.getElem?_append_left (by simp; omega),
          List.getElem?_take, if_pos (by omega), hd]
      simp [show i ≠ r by omega]
    · subst h1
      rw [List.getElem?_append_left (by simp; omega), List.getElem?_append_right (by simp)]
      simp only [List.length_take, hl, List.getElem?_replicate]
      rw [if_pos (by omega)]
      simp
    · have h2 : (r + 1) * cols ≤ i * cols := Nat.mul_le_mul_right _ h1
      rw [List.getElem?_append_right (by simp; omega), List.getElem?_drop]
      simp only [List.length_append, List.length_take, List.length_replicate, hl]
      rw [show (r + 1) * cols + (i * cols + k - (min (r * cols) (rows * cols) +
          ((r + 1) * cols - r * cols))) = i * cols + k by omega, hd]
      simp [show i ≠ r by omega]

theorem DInv.mapAll {rows cols : Nat} {A : Dense α} {M : Nat → Nat → α} (h : DInv rows cols A M)
    (f : α → α) : DInv rows cols { A with container := A.container.map f } (fun i j => f (M i j)) := by
  refine ⟨h.hrows, h.hcols, ?_⟩
  simp only
  rw [h.hdata, List.map_flatMap]
  congr 1
  funext r
  simp

theorem DInv.step [Semiring α] {rows cols : Nat} {A : Dense α} {M : Nat → Nat → α}
    (h : DInv rows cols A M) (op : Op α) (hop : op.Within fun r c => r < rows ∧ c < cols) :
    ∃ A', A.step op = some A' ∧ DInv rows cols A' (specStep M op) := by
  cases op with
  | write r c v => exact h.modify hop.1 hop.2 (fun _ => v)
  | add r c v => exact h.modify hop.1 hop.2 (fun w => w + v)
  | scale e => exact ⟨_, rfl, h.mapAll (e * ·)⟩
  | zero => exact ⟨_, rfl, h.mapAll (fun _ => 0)⟩
  | clearRow r d =>
    obtain ⟨A', h1, h2⟩ := (h.fillRow hop.1).modify hop.1 hop.2 (fun _ => d)
    refine ⟨A', ?_, ?_⟩
    · have hm : (r + 1) * A.cols ≤ A.container.length := by
        rw [h.length, h.hcols]; exact Nat.mul_le_mul_right _ hop.1
      simp only [Dense.step, Dense.clearRow, if_pos hm]
      exact h1
    · convert h2 using 1
      funext i j
      simp only [specStep]
      by_cases hi : i = r <;> by_cases hj : j = r <;> simp [hi, hj]

theorem DInv.steps [Semiring α] {rows cols : Nat}
    (ops : List (Op α)) (hops : ∀ op ∈ ops, op.Within fun r c => r < rows ∧ c < cols)
    {A : Dense α} {M : Nat → Nat → α} (h : DInv rows cols A M) :
    ∃ A', ops.foldlM Dense.step A = some A' ∧ DInv rows cols A' (ops.foldl specStep M) := by
  induction ops generalizing A M with
  | nil => exact ⟨A, rfl, h⟩
  | cons op ops ih =>
    obtain ⟨A1, h1, h2⟩ := h.step op (hops op (by simp))
    obtain ⟨A2, h3, h4⟩ := ih (fun o ho => hops o (by simp [ho])) h2
    exact ⟨A2, by simp [List.foldlM_cons, h1, h3], h4⟩

theorem DInv.new [Zero α] (rows cols : Nat) :
    DInv rows cols (Dense.new rows cols (0 : α)) (fun _ _ => 0) := by
  refine ⟨rfl, rfl, ?_⟩
  simp only [Dense.new]
  apply ext_flatMap
  · rw [pre_const]; simp
  · intro r k hr hk
    simp only [List.length_map, List.length_range] at hk
    rw [pre_const, List.getElem?_replicate, if_pos, List.getElem?_map, List.getElem?_range hk]
    · rfl
    · calc r * cols + k < (r + 1) * cols := by rw [Nat.add_mul]; omega
        _ ≤ rows * cols := Nat.mul_le_mul_right _ hr

theorem DInv.row [Semiring α] {rows cols : Nat} {A : Dense α} {M : Nat → Nat → α}
    (h : DInv rows cols A M) (x : List α) (hx : x.length = cols) {r : Nat} (hr : r < rows) :
    innerProduct 0 ((A.container.drop (r * A.cols)).take A.cols) x
      = specMv cols M (fun c => x[c]?.getD 0) r := by
  have h2 := slice_flatMap (fun r => (List.range cols).map (M r)) rows r hr
  rw [pre_const, List.length_map, List.length_range] at h2
  rw [h.hdata, h.hcols, h2]
  have h3 : x = (List.range cols).map (fun c => x[c]?.getD 0) := by
    apply List.ext_getElem?
    intro k
    by_cases hk : k < cols
    · rw [List.getElem?_map, List.getElem?_range hk, Option.map_some, List.getElem?_eq_getElem (by omega)]; simp
    · rw [List.getElem?_eq_none (by omega), List.getElem?_eq_none (by simp; omega)]
  conv_lhs => rw [h3]
  rw [innerProduct_map, zero_add]
  unfold specMv
  rw [sum_srow (List.nodup_range)]
  · intro c hc; exact List.mem_range.1 hc
  · intro c hc
    simp at hc
    rw [List.getElem?_eq_none (by omega)]; simp

theorem specStep_zero_outside [Semiring α] (S : Nat → Nat → Prop) (ops : List (Op α))
    (hops : ∀ op ∈ ops, op.Within S) (M : Nat → Nat → α) (hM : ∀ r c, ¬ S r c → M r c = 0) :
    ∀ r c, ¬ S r c → ops.foldl specStep M r c = 0 := by
  induction ops generalizing M with
  | nil => exact hM
  | cons op ops ih =>
    apply ih (fun o ho => hops o (by simp [ho]))
    intro r c hrc
    have hop := hops op (by simp)
    cases op with
    | write a b v =>
      simp only [specStep]; rw [if_neg, hM r c hrc]; rintro ⟨rfl, rfl⟩; exact hrc hop
    | add a b v =>
      simp only [specStep]; rw [if_neg, hM r c hrc]; rintro ⟨rfl, rfl⟩; exact hrc hop
    | scale e => simp [specStep, hM r c hrc]
    | zero => simp [specStep]
    | clearRow a d =>
      simp only [specStep]
      split
      · rename_i h; subst h
        rw [if_neg]; rintro rfl; exact hrc hop
      · exact hM r c hrc

end Verif.SimpleMatrix
