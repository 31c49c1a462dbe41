import Mathlib.Algebra.BigOperators.Group.List.Basic
import Mathlib.Algebra.Ring.Basic
import Verif.Spec.FastDG
import Verif.Proofs.GridAssembler
/-
Helpers for `Verif.Props.FastDG`.
-/
namespace Verif.FastDG
open GridAssembler

variable {K : Type}

theorem entrySum_append [AddMonoid K] (scale : Acc K → K) (a b : List (Nat × Acc K)) (c i : Nat) :
    entrySum scale (a ++ b) c i = entrySum scale a c i + entrySum scale b c i := by
  simp [entrySum, List.filter_append, List.map_append, List.sum_append]

theorem entrySum_nil [AddMonoid K] (scale : Acc K → K) (c i : Nat) : entrySum scale [] c i = 0 := by
  simp [entrySum]

theorem entrySum_congr [AddMonoid K] (s t : Acc K → K) (l : List (Nat × Acc K)) (h : ∀ p ∈ l, s p.2 = t p.2) (c i : Nat) :
    entrySum s l c i = entrySum t l c i := by
  unfold entrySum
  congr 1
  apply List.map_congr_left
  intro p hp
  exact h p (List.mem_of_mem_filter hp)

theorem entrySum_cons [AddMonoid K] (s : Acc K → K) (p : Nat × Acc K) (l : List (Nat × Acc K)) (c i : Nat) :
    entrySum s (p :: l) c i = (if p.1 = c ∧ p.2.dof = i then s p.2 else 0) + entrySum s l c i := by
  unfold entrySum
  rw [List.filter_cons]
  by_cases h : p.1 = c ∧ p.2.dof = i
  · rw [if_pos (by simpa using h), if_pos h]; simp
  · rw [if_neg (by simpa using h), if_neg h]; simp

theorem accAliased_apply [Semiring K] (w : K) (l : List (Nat × Acc K)) (r : Vec K) (c i : Nat) :
    accAliased w l r c i = r c i + entrySum (aliasedScale w) l c i := by
  unfold accAliased
  induction l generalizing r with
  | nil => simp [entrySum]
  | cons p l ih =>
    rw [List.foldl_cons, ih]
    simp only [entrySum, addEntry, List.filter_cons]
    by_cases h : c = p.1 ∧ i = p.2.dof
    · rw [if_pos h, if_pos (by simp [h.1, h.2])]
      simp [add_assoc]
    · rw [if_neg h, if_neg (by simpa using fun h1 h2 => h ⟨h1.symm, h2.symm⟩)]

theorem accLocal_apply [Semiring K] (w : K) (l : List (Acc K)) (r : Nat → K) (i : Nat) :
    accLocal w l r i = r i + ((l.filter fun a => decide (a.dof = i)).map (localScale w)).sum := by
  unfold accLocal
  induction l generalizing r with
  | nil => simp
  | cons a l ih =>
    rw [List.foldl_cons, ih]
    simp only [addAt, List.filter_cons]
    by_cases h : i = a.dof
    · rw [if_pos h, if_pos (by simp [h])]
      simp [add_assoc]
    · rw [if_neg h, if_neg (by simpa using fun h1 => h h1.symm)]

theorem entrySum_cell [Semiring K] (s : Acc K → K) (l : List (Acc K)) (c b i : Nat) :
    entrySum s (l.map fun a => (c, a)) b i =
      if b = c then ((l.filter fun a => decide (a.dof = i)).map s).sum else 0 := by
  unfold entrySum
  by_cases h : b = c
  · subst h
    simp [List.filter_map, Function.comp_def]
  · have : (l.map fun a => (c, a)).filter (fun p => decide (p.1 = b ∧ p.2.dof = i)) = [] := by
      simp only [List.filter_eq_nil_iff, List.mem_map, decide_eq_true_eq]
      rintro _ ⟨a, _, rfl⟩ ⟨h', _⟩
      exact h h'.symm
    rw [this, if_neg h]; rfl

theorem entrySum_sides [Semiring K] (s : Acc K → K) (l : List (Side × Acc K)) (c n b i : Nat) :
    entrySum s (l.map fun p => (if p.1 = .inside then c else n, p.2)) b i =
      (if b = c then (((ofSide .inside l).filter fun a => decide (a.dof = i)).map s).sum else 0) +
      (if b = n then (((ofSide .outside l).filter fun a => decide (a.dof = i)).map s).sum else 0) := by
  induction l with
  | nil => simp [entrySum, ofSide]
  | cons p l ih =>
    obtain ⟨sd, a⟩ := p
    rw [List.map_cons, entrySum_cons, ih]
    cases sd with
    | inside =>
      simp only [ofSide, List.filter_cons, if_pos, decide_true, List.map_cons, reduceCtorEq, decide_false, if_neg, Bool.false_eq_true]
      by_cases hb : b = c
      · by_cases hi : a.dof = i
        · simp [hb, hi, add_assoc]
        · simp [hb, hi]
      · have hb' : c ≠ b := fun h' => hb h'.symm
        simp [hb, hb']
    | outside =>
      simp only [ofSide, List.filter_cons, if_pos, decide_true, List.map_cons, reduceCtorEq, decide_false, if_neg, Bool.false_eq_true]
      by_cases hb : b = n
      · by_cases hi : a.dof = i
        · simp [hb, hi, add_left_comm]
        · simp [hb, hi]
      · have hb' : n ≠ b := fun h' => hb h'.symm
        simp [hb, hb']

theorem toCells_eq (c n : Nat) (l : List (Side × Acc K)) :
    toCells c n l = l.map fun p => (if p.1 = .inside then c else n, p.2) := by
  unfold toCells
  apply List.map_congr_left
  intro p _
  rcases p with ⟨s, a⟩
  cases s <;> rfl

/-! Fast engine -/

/-- Which cells the views point to in a state of the protocol. -/
def Bound (p : Protocol) (s : Fast K) : Prop :=
  match p with
  | .start | .ready | .done => True
  | .vBound c => s.rl = some c
  | .uvBound c | .loaded c => s.rl = some c ∧ s.sl = some c
  | .vOutside c n => s.rl = some c ∧ s.sl = some c ∧ s.rn = some n
  | .uvOutside c n | .outsideLoaded c n => s.rl = some c ∧ s.sl = some c ∧ s.rn = some n ∧ s.sn = some n

/-- The memory after the accumulations `l`. -/
def FastMem [Semiring K] (dst : Nat) (w : K) (post : Vec K → Vec K) (m0 : Nat → Vec K) (p : Protocol) (l : List (Nat × Acc K))
    (mem : Nat → Vec K) : Prop :=
  (∀ a, a ≠ dst → mem a = m0 a) ∧
  mem dst = if p = .done then post (fun c i => m0 dst c i + entrySum (aliasedScale w) l c i)
    else fun c i => m0 dst c i + entrySum (aliasedScale w) l c i

theorem put_same (mem : Nat → Vec K) (a : Nat) (v : Vec K) : put mem a v a = v := by simp [put]
theorem put_other (mem : Nat → Vec K) (a b : Nat) (v : Vec K) (h : b ≠ a) : put mem a v b = mem b := by simp [put, h]

theorem srcs_eq {srcs : List Nat} {dst : Nat} (hd : dst ∉ srcs) {mem m0 : Nat → Vec K} (h : ∀ a, a ≠ dst → mem a = m0 a) (d : Nat) :
    (srcs.map fun a => mem a d) = srcs.map fun a => m0 a d := by
  apply List.map_congr_left
  intro a ha
  rw [h a (fun he => hd (he ▸ ha))]

theorem fastMem_acc [Semiring K] {dst : Nat} {w : K} {post : Vec K → Vec K} {m0 : Nat → Vec K} {p p' : Protocol}
    {l : List (Nat × Acc K)} {mem : Nat → Vec K} (h : FastMem dst w post m0 p l mem) (hp : p ≠ .done) (hp' : p' ≠ .done)
    (calls : List (Nat × Acc K)) : FastMem dst w post m0 p' (l ++ calls) (put mem dst (accAliased w calls (mem dst))) := by
  obtain ⟨h1, h2⟩ := h
  refine ⟨fun a ha => by rw [put_other _ _ _ _ ha, h1 a ha], ?_⟩
  rw [put_same, if_neg hp', h2, if_neg hp]
  funext c i
  rw [accAliased_apply, entrySum_append, add_assoc]

theorem fastMem_id [Semiring K] {dst : Nat} {w : K} {post : Vec K → Vec K} {m0 : Nat → Vec K} {p p' : Protocol}
    {l : List (Nat × Acc K)} {mem : Nat → Vec K} (h : FastMem dst w post m0 p l mem) (hp : p ≠ .done) (hp' : p' ≠ .done) :
    FastMem dst w post m0 p' (l ++ []) mem := by
  obtain ⟨h1, h2⟩ := h
  refine ⟨h1, ?_⟩
  rw [h2, if_neg hp, if_neg hp', List.append_nil]

/-- The transitions of the protocol. -/
inductive Trans : Protocol → Event → Protocol → Prop
  | pre (c f i o : Nat) : Trans .start ⟨.preAssembly, c, f, i, o⟩ .ready
  | post (c f i o : Nat) : Trans .ready ⟨.postAssembly, c, f, i, o⟩ .done
  | bindV (c f i o : Nat) : Trans .ready ⟨.onBindLFSV, c, f, i, o⟩ (.vBound c)
  | vVolume (c f i o : Nat) : Trans (.vBound c) ⟨.assembleVVolume, c, f, i, o⟩ (.vBound c)
  | bindUV (c f i o : Nat) : Trans (.vBound c) ⟨.onBindLFSUV, c, f, i, o⟩ (.uvBound c)
  | unbindV (c f i o : Nat) : Trans (.vBound c) ⟨.onUnbindLFSV, c, f, i, o⟩ .ready
  | load (c f i o : Nat) : Trans (.uvBound c) ⟨.loadInside, c, f, i, o⟩ (.loaded c)
  | cellV (k : Kind) (hk : k = .assembleVBoundary ∨ k = .assembleVVolumePostSkeleton) (c f i o : Nat) :
      Trans (.loaded c) ⟨k, c, f, i, o⟩ (.loaded c)
  | cellUV (k : Kind) (hk : k = .assembleUVVolume ∨ k = .assembleUVBoundary ∨ k = .assembleUVVolumePostSkeleton) (c f i o : Nat) :
      Trans (.loaded c) ⟨k, c, f, i, o⟩ (.loaded c)
  | processor (k : Kind) (hk : k = .assembleVProcessor ∨ k = .assembleUVProcessor) (c f i o : Nat) :
      Trans (.loaded c) ⟨k, c, f, i, o⟩ (.loaded c)
  | unbindUV (c f i o : Nat) : Trans (.loaded c) ⟨.onUnbindLFSUV, c, f, i, o⟩ (.vBound c)
  | bindVOut (c f i n : Nat) : Trans (.loaded c) ⟨.onBindLFSVOutside, c, f, i, n⟩ (.vOutside c n)
  | vSkeleton (c f i n : Nat) : Trans (.vOutside c n) ⟨.assembleVSkeleton, c, f, i, n⟩ (.vOutside c n)
  | bindUVOut (c f i n : Nat) : Trans (.vOutside c n) ⟨.onBindLFSUVOutside, c, f, i, n⟩ (.uvOutside c n)
  | loadOut (c f i n : Nat) : Trans (.uvOutside c n) ⟨.loadOutside, c, f, i, n⟩ (.outsideLoaded c n)
  | uvSkeleton (c f i n : Nat) : Trans (.outsideLoaded c n) ⟨.assembleUVSkeleton, c, f, i, n⟩ (.outsideLoaded c n)
  | unbindUVOut (c f i n : Nat) : Trans (.outsideLoaded c n) ⟨.onUnbindLFSUVOutside, c, f, i, n⟩ (.vOutside c n)
  | unbindVOut (c f i n : Nat) : Trans (.vOutside c n) ⟨.onUnbindLFSVOutside, c, f, i, n⟩ (.loaded c)

theorem trans_of_step {p p' : Protocol} {e : Event} (hp : p.step e = some p') : Trans p e p' := by
  obtain ⟨k, c, f, ix, o⟩ := e
  cases p <;> cases k <;> simp only [Protocol.step, reduceCtorEq, Option.some.injEq, List.mem_cons, List.not_mem_nil, or_false, or_true,
    and_true, and_false, if_false, false_or, Option.ite_none_right_eq_some] at hp
  all_goals first
    | (obtain ⟨⟨hc, hn⟩, hp⟩ := hp
       subst hc; subst hn; subst hp
       constructor)
    | (obtain ⟨hc, hp⟩ := hp
       subst hc; subst hp
       first
         | (apply Trans.cellV; decide)
         | (apply Trans.cellUV; decide)
         | (apply Trans.processor; decide)
         | constructor)
    | (subst hp; constructor)

theorem fast_step [Semiring K] (lop : Lop K) {srcs : List Nat} {dst : Nat} (hd : dst ∉ srcs) (w : K) (post : Vec K → Vec K)
    (m0 : Nat → Vec K) (p p' : Protocol) (e : Event) (hp : p.step e = some p') (l : List (Nat × Acc K)) (s : Fast K)
    (hb : Bound p s) (hm : FastMem dst w post m0 p l s.mem) :
    ∃ s', Fast.step lop srcs dst w post s e = some s' ∧ Bound p' s' ∧
      FastMem dst w post m0 p' (l ++ contributions lop (srcs.map m0) e) s'.mem := by
  have hmap : ∀ d, ((srcs.map m0).map fun x => x d) = srcs.map fun a => m0 a d := fun d => by
    rw [List.map_map]; rfl
  cases trans_of_step hp
  case pre => exact ⟨_, rfl, trivial, by simpa [contributions] using fastMem_id hm (by simp) (by simp)⟩
  case post c f i o =>
    refine ⟨_, rfl, trivial, fun a ha => (put_other _ _ _ _ ha).trans (hm.1 a ha), ?_⟩
    have : contributions lop (srcs.map m0) ⟨.postAssembly, c, f, i, o⟩ = [] := by simp [contributions]
    rw [this, List.append_nil]
    change put s.mem dst (post (s.mem dst)) dst = _
    rw [put_same, hm.2]; simp
  case bindV => exact ⟨_, rfl, rfl, by simpa [contributions] using fastMem_id hm (by simp) (by simp)⟩
  case bindUV => exact ⟨_, rfl, ⟨hb, rfl⟩, by simpa [contributions] using fastMem_id hm (by simp) (by simp)⟩
  case unbindV => exact ⟨_, rfl, trivial, by simpa [contributions] using fastMem_id hm (by simp) (by simp)⟩
  case load => exact ⟨_, rfl, hb, by simpa [contributions] using fastMem_id hm (by simp) (by simp)⟩
  case unbindUV => exact ⟨_, rfl, hb.1, by simpa [contributions] using fastMem_id hm (by simp) (by simp)⟩
  case bindVOut => exact ⟨_, rfl, ⟨hb.1, hb.2, rfl⟩, by simpa [contributions] using fastMem_id hm (by simp) (by simp)⟩
  case bindUVOut => exact ⟨_, rfl, ⟨hb.1, hb.2.1, hb.2.2, rfl⟩, by simpa [contributions] using fastMem_id hm (by simp) (by simp)⟩
  case loadOut => exact ⟨_, rfl, hb, by simpa [contributions] using fastMem_id hm (by simp) (by simp)⟩
  case unbindUVOut => exact ⟨_, rfl, ⟨hb.1, hb.2.1, hb.2.2.1⟩, by simpa [contributions] using fastMem_id hm (by simp) (by simp)⟩
  case unbindVOut => exact ⟨_, rfl, ⟨hb.1, hb.2.1⟩, by simpa [contributions] using fastMem_id hm (by simp) (by simp)⟩
  case processor k hk c f i o =>
    rcases hk with rfl | rfl <;>
    exact ⟨_, rfl, hb, by simpa [contributions] using fastMem_id hm (by simp) (by simp)⟩
  case vVolume c f i o =>
    have hb' : s.rl = some c := hb
    by_cases hf : lop.flag .assembleVVolume = true
    · have hc : contributions lop (srcs.map m0) ⟨.assembleVVolume, c, f, i, o⟩ =
          (lop.lambda ⟨.assembleVVolume, c, f, i, o⟩).map fun a => (c, a) := by simp [contributions, hf]
      rw [hc]
      refine ⟨{ s with mem := put s.mem dst (accAliased w
          ((lop.lambda ⟨.assembleVVolume, c, f, i, o⟩).map fun a => (c, a)) (s.mem dst)) },
        ?_, hb', fastMem_acc hm (by simp) (by simp) _⟩
      simp only [Fast.step, hf, if_true, hb', Option.map_some]
    · have hc : contributions lop (srcs.map m0) ⟨.assembleVVolume, c, f, i, o⟩ = [] := by simp [contributions, hf]
      rw [hc]
      exact ⟨_, by simp only [Fast.step, hf]; rfl, hb, fastMem_id hm (by simp) (by simp)⟩
  case cellV k hk c f i o =>
    have hb' : s.rl = some c := hb.1
    by_cases hf : lop.flag k = true
    · have hc : contributions lop (srcs.map m0) ⟨k, c, f, i, o⟩ = (lop.lambda ⟨k, c, f, i, o⟩).map fun a => (c, a) := by
        rcases hk with rfl | rfl <;> simp [contributions, hf]
      rw [hc]
      refine ⟨{ s with mem := put s.mem dst (accAliased w ((lop.lambda ⟨k, c, f, i, o⟩).map fun a => (c, a)) (s.mem dst)) },
        ?_, hb, fastMem_acc hm (by simp) (by simp) _⟩
      rcases hk with rfl | rfl <;> simp only [Fast.step, hf, if_true, hb', Option.map_some]
    · have hc : contributions lop (srcs.map m0) ⟨k, c, f, i, o⟩ = [] := by simp [contributions, hf]
      rw [hc]
      refine ⟨s, ?_, hb, fastMem_id hm (by simp) (by simp)⟩
      rcases hk with rfl | rfl <;> simp [Fast.step, hf]
  case cellUV k hk c f i o =>
    have hb' : s.rl = some c := hb.1
    have hb'' : s.sl = some c := hb.2
    by_cases hf : lop.flag k = true
    · have hc : contributions lop (srcs.map m0) ⟨k, c, f, i, o⟩ =
          (lop.alpha ⟨k, c, f, i, o⟩ (srcs.map fun a => m0 a c)).map fun a => (c, a) := by
        rcases hk with rfl | rfl | rfl <;> simp only [contributions, hf, if_true, ← hmap] <;> rfl
      rw [hc]
      refine ⟨{ s with mem := put s.mem dst (accAliased w
          ((lop.alpha ⟨k, c, f, i, o⟩ (srcs.map fun a => m0 a c)).map fun a => (c, a)) (s.mem dst)) },
        ?_, hb, fastMem_acc hm (by simp) (by simp) _⟩
      rw [← srcs_eq hd hm.1]
      rcases hk with rfl | rfl | rfl <;> simp only [Fast.step, hf, if_true, hb', hb'', Option.map_some, Option.bind_some]
    · have hc : contributions lop (srcs.map m0) ⟨k, c, f, i, o⟩ = [] := by simp [contributions, hf]
      rw [hc]
      refine ⟨s, ?_, hb, fastMem_id hm (by simp) (by simp)⟩
      rcases hk with rfl | rfl | rfl <;> simp [Fast.step, hf]
  case vSkeleton c f i n =>
    obtain ⟨h1, h2, h3⟩ := hb
    by_cases hf : lop.flag .assembleVSkeleton = true
    · have hc : contributions lop (srcs.map m0) ⟨.assembleVSkeleton, c, f, i, n⟩ =
          toCells c n (lop.lambdaSkeleton ⟨.assembleVSkeleton, c, f, i, n⟩) := by
        rw [toCells_eq]; simp [contributions, hf]
      rw [hc]
      refine ⟨{ s with mem := put s.mem dst (accAliased w
          (toCells c n (lop.lambdaSkeleton ⟨.assembleVSkeleton, c, f, i, n⟩)) (s.mem dst)) },
        ?_, ⟨h1, h2, h3⟩, fastMem_acc hm (by simp) (by simp) _⟩
      simp only [Fast.step, hf, if_true, h1, h3, Option.map_some, Option.bind_some]
    · have hc : contributions lop (srcs.map m0) ⟨.assembleVSkeleton, c, f, i, n⟩ = [] := by simp [contributions, hf]
      rw [hc]
      exact ⟨_, by simp only [Fast.step, hf]; rfl, ⟨h1, h2, h3⟩, fastMem_id hm (by simp) (by simp)⟩
  case uvSkeleton c f i n =>
    obtain ⟨h1, h2, h3, h4⟩ := hb
    by_cases hf : lop.flag .assembleUVSkeleton = true
    · have hc : contributions lop (srcs.map m0) ⟨.assembleUVSkeleton, c, f, i, n⟩ =
          toCells c n (lop.alphaSkeleton ⟨.assembleUVSkeleton, c, f, i, n⟩ (srcs.map fun a => m0 a c) (srcs.map fun a => m0 a n)) := by
        rw [toCells_eq]; simp only [contributions, hf, if_true, ← hmap]; rfl
      rw [hc, ← srcs_eq hd hm.1, ← srcs_eq hd hm.1]
      refine ⟨{ s with mem := put s.mem dst (accAliased w
          (toCells c n (lop.alphaSkeleton ⟨.assembleUVSkeleton, c, f, i, n⟩ (srcs.map fun a => s.mem a c) (srcs.map fun a => s.mem a n)))
          (s.mem dst)) }, ?_, ⟨h1, h2, h3, h4⟩, fastMem_acc hm (by simp) (by simp) _⟩
      simp only [Fast.step, hf, if_true, h1, h2, h3, h4, Option.map_some, Option.bind_some]
    · have hc : contributions lop (srcs.map m0) ⟨.assembleUVSkeleton, c, f, i, n⟩ = [] := by simp [contributions, hf]
      rw [hc]
      exact ⟨_, by simp only [Fast.step, hf]; rfl, ⟨h1, h2, h3, h4⟩, fastMem_id hm (by simp) (by simp)⟩

/-- Along any list of calls that respects the protocol. -/
theorem fast_run [Semiring K] (lop : Lop K) {srcs : List Nat} {dst : Nat} (hd : dst ∉ srcs) (w : K) (post : Vec K → Vec K)
    (m0 : Nat → Vec K) (es : List Event) : ∀ (p p' : Protocol), es.foldlM Protocol.step p = some p' →
    ∀ (l : List (Nat × Acc K)) (s : Fast K), Bound p s → FastMem dst w post m0 p l s.mem →
    ∃ s', es.foldlM (Fast.step lop srcs dst w post) s = some s' ∧
      FastMem dst w post m0 p' (l ++ es.flatMap (contributions lop (srcs.map m0))) s'.mem := by
  induction es with
  | nil =>
    intro p p' hp l s _ hm
    simp only [List.foldlM_nil, Option.pure_def, Option.some.injEq] at hp
    subst hp
    exact ⟨s, rfl, by simpa using hm⟩
  | cons e es ih =>
    intro p p' hp l s hb hm
    rw [List.foldlM_cons] at hp
    rcases Option.eq_none_or_eq_some (p.step e) with h | ⟨q, h⟩
    · rw [h] at hp; cases hp
    · rw [h] at hp
      obtain ⟨s1, h1, hb1, hm1⟩ := fast_step lop hd w post m0 p q e h l s hb hm
      obtain ⟨s2, h2, hm2⟩ := ih q p' hp _ s1 hb1 hm1
      refine ⟨s2, ?_, ?_⟩
      · rw [List.foldlM_cons, h1]; exact h2
      · rw [List.flatMap_cons, ← List.append_assoc]; exact hm2


/-! Default engine -/

/-- A local buffer as a contribution to the global vector. -/
def onCell [Zero K] (c : Nat) (f : Nat → K) (b i : Nat) : K := if b = c then f i else 0

theorem onCell_zero [Zero K] (c b i : Nat) : onCell (K := K) c (fun _ => 0) b i = 0 := by simp [onCell]

theorem onCell_acc [Semiring K] (w : K) (c : Nat) (calls : List (Acc K)) (rl : Nat → K) (b i : Nat) :
    onCell c (accLocal w calls rl) b i = onCell c rl b i + entrySum (localScale w) (calls.map fun a => (c, a)) b i := by
  rw [entrySum_cell]
  unfold onCell
  by_cases h : b = c
  · rw [if_pos h, if_pos h, if_pos h, accLocal_apply]
  · rw [if_neg h, if_neg h, if_neg h, add_zero]

theorem onCell_sides [Semiring K] (w : K) (c n : Nat) (calls : List (Side × Acc K)) (rl rn : Nat → K) (b i : Nat) :
    onCell c (accLocal w (ofSide .inside calls) rl) b i + onCell n (accLocal w (ofSide .outside calls) rn) b i =
      onCell c rl b i + onCell n rn b i +
        entrySum (localScale w) (calls.map fun p => (if p.1 = .inside then c else n, p.2)) b i := by
  rw [onCell_acc, onCell_acc, entrySum_sides, entrySum_cell, entrySum_cell]
  exact add_add_add_comm _ _ _ _

theorem addBlock_apply [Semiring K] (r : Vec K) (c : Nat) (f : Nat → K) (b i : Nat) :
    addBlock r c f b i = r b i + onCell c f b i := by
  unfold addBlock onCell
  split <;> simp

/-- State of the default engine after the accumulations `l`. -/
def DefaultInv [Semiring K] (srcs : List Nat) (dst : Nat) (w : K) (post : Vec K → Vec K) (m0 : Nat → Vec K) (p : Protocol)
    (l : List (Nat × Acc K)) (s : Default K) : Prop :=
  (∀ a, a ≠ dst → s.mem a = m0 a) ∧
  match p with
  | .start | .ready => ∀ b i, s.mem dst b i = m0 dst b i + entrySum (localScale w) l b i
  | .done => s.mem dst = post fun b i => m0 dst b i + entrySum (localScale w) l b i
  | .vBound c | .uvBound c => ∀ b i, s.mem dst b i + onCell c s.rl b i = m0 dst b i + entrySum (localScale w) l b i
  | .loaded c => (∀ b i, s.mem dst b i + onCell c s.rl b i = m0 dst b i + entrySum (localScale w) l b i) ∧
      s.xl = srcs.map fun a => m0 a c
  | .vOutside c n | .uvOutside c n =>
      (∀ b i, s.mem dst b i + (onCell c s.rl b i + onCell n s.rn b i) = m0 dst b i + entrySum (localScale w) l b i) ∧
      s.xl = srcs.map fun a => m0 a c
  | .outsideLoaded c n =>
      (∀ b i, s.mem dst b i + (onCell c s.rl b i + onCell n s.rn b i) = m0 dst b i + entrySum (localScale w) l b i) ∧
      (s.xl = srcs.map fun a => m0 a c) ∧ s.xn = srcs.map fun a => m0 a n

theorem default_step [Semiring K] (lop : Lop K) {srcs : List Nat} {dst : Nat} (hd : dst ∉ srcs) (w : K) (post : Vec K → Vec K)
    (m0 : Nat → Vec K) (p p' : Protocol) (e : Event) (hp : p.step e = some p') (l : List (Nat × Acc K)) (s : Default K)
    (hm : DefaultInv srcs dst w post m0 p l s) :
    DefaultInv srcs dst w post m0 p' (l ++ contributions lop (srcs.map m0) e) (Default.step lop srcs dst w post s e) := by
  have hmap : ∀ d, ((srcs.map m0).map fun x => x d) = srcs.map fun a => m0 a d := fun d => by
    rw [List.map_map]; rfl
  obtain ⟨hs, hm⟩ := hm
  cases trans_of_step hp
  case pre c f i o =>
    have hc : contributions lop (srcs.map m0) ⟨.preAssembly, c, f, i, o⟩ = [] := by simp [contributions]
    rw [hc, List.append_nil]
    exact ⟨hs, hm⟩
  case post c f i o =>
    refine ⟨fun a ha => (put_other _ _ _ _ ha).trans (hs a ha), ?_⟩
    have hc : contributions lop (srcs.map m0) ⟨.postAssembly, c, f, i, o⟩ = [] := by simp [contributions]
    rw [hc, List.append_nil]
    change put s.mem dst (post (s.mem dst)) dst = _
    rw [put_same]
    congr 1
    funext b i
    exact hm b i
  case bindV c f i o =>
    have hc : contributions lop (srcs.map m0) ⟨.onBindLFSV, c, f, i, o⟩ = [] := by simp [contributions]
    rw [hc, List.append_nil]
    refine ⟨hs, fun b i => ?_⟩
    change s.mem dst b i + onCell c (fun _ => 0) b i = _
    rw [onCell_zero, add_zero]; exact hm b i
  case bindUV c f i o =>
    have hc : contributions lop (srcs.map m0) ⟨.onBindLFSUV, c, f, i, o⟩ = [] := by simp [contributions]
    rw [hc, List.append_nil]
    exact ⟨hs, hm⟩
  case unbindV c f i o =>
    have hc : contributions lop (srcs.map m0) ⟨.onUnbindLFSV, c, f, i, o⟩ = [] := by simp [contributions]
    rw [hc, List.append_nil]
    refine ⟨fun a ha => (put_other _ _ _ _ ha).trans (hs a ha), fun b i => ?_⟩
    change put s.mem dst (addBlock (s.mem dst) c s.rl) dst b i = _
    rw [put_same, addBlock_apply]; exact hm b i
  case load c f i o =>
    have hc : contributions lop (srcs.map m0) ⟨.loadInside, c, f, i, o⟩ = [] := by simp [contributions]
    rw [hc, List.append_nil]
    exact ⟨hs, hm, srcs_eq hd hs c⟩
  case unbindUV c f i o =>
    have hc : contributions lop (srcs.map m0) ⟨.onUnbindLFSUV, c, f, i, o⟩ = [] := by simp [contributions]
    rw [hc, List.append_nil]
    exact ⟨hs, hm.1⟩
  case bindVOut c f i n =>
    have hc : contributions lop (srcs.map m0) ⟨.onBindLFSVOutside, c, f, i, n⟩ = [] := by simp [contributions]
    rw [hc, List.append_nil]
    refine ⟨hs, fun b i => ?_, hm.2⟩
    change s.mem dst b i + (onCell c s.rl b i + onCell n (fun _ => 0) b i) = _
    rw [onCell_zero, add_zero]; exact hm.1 b i
  case bindUVOut c f i n =>
    have hc : contributions lop (srcs.map m0) ⟨.onBindLFSUVOutside, c, f, i, n⟩ = [] := by simp [contributions]
    rw [hc, List.append_nil]
    exact ⟨hs, hm⟩
  case loadOut c f i n =>
    have hc : contributions lop (srcs.map m0) ⟨.loadOutside, c, f, i, n⟩ = [] := by simp [contributions]
    rw [hc, List.append_nil]
    exact ⟨hs, hm.1, hm.2, srcs_eq hd hs n⟩
  case unbindUVOut c f i n =>
    have hc : contributions lop (srcs.map m0) ⟨.onUnbindLFSUVOutside, c, f, i, n⟩ = [] := by simp [contributions]
    rw [hc, List.append_nil]
    exact ⟨hs, hm.1, hm.2.1⟩
  case unbindVOut c f i n =>
    have hc : contributions lop (srcs.map m0) ⟨.onUnbindLFSVOutside, c, f, i, n⟩ = [] := by simp [contributions]
    rw [hc, List.append_nil]
    refine ⟨fun a ha => (put_other _ _ _ _ ha).trans (hs a ha), fun b i => ?_, hm.2⟩
    change put s.mem dst (addBlock (s.mem dst) n s.rn) dst b i + onCell c s.rl b i = _
    rw [put_same, addBlock_apply, add_assoc, add_comm (onCell n s.rn b i)]; exact hm.1 b i
  case processor k hk c f i o =>
    have hc : contributions lop (srcs.map m0) ⟨k, c, f, i, o⟩ = [] := by rcases hk with rfl | rfl <;> simp [contributions]
    rw [hc, List.append_nil]
    rcases hk with rfl | rfl <;> exact ⟨hs, hm⟩
  case vVolume c f i o =>
    by_cases hf : lop.flag .assembleVVolume = true
    · have hc : contributions lop (srcs.map m0) ⟨.assembleVVolume, c, f, i, o⟩ =
          (lop.lambda ⟨.assembleVVolume, c, f, i, o⟩).map fun a => (c, a) := by simp [contributions, hf]
      have h2 : Default.step lop srcs dst w post s ⟨.assembleVVolume, c, f, i, o⟩ =
          { s with rl := accLocal w (lop.lambda ⟨.assembleVVolume, c, f, i, o⟩) s.rl } := by simp [Default.step, hf]
      rw [hc, h2]
      refine ⟨hs, fun b i => ?_⟩
      rw [entrySum_append, onCell_acc, ← add_assoc, ← add_assoc, hm b i]
    · have hc : contributions lop (srcs.map m0) ⟨.assembleVVolume, c, f, i, o⟩ = [] := by simp [contributions, hf]
      have h2 : Default.step lop srcs dst w post s ⟨.assembleVVolume, c, f, i, o⟩ = s := by simp [Default.step, hf]
      rw [hc, h2, List.append_nil]
      exact ⟨hs, hm⟩
  case cellV k hk c f i o =>
    by_cases hf : lop.flag k = true
    · have hc : contributions lop (srcs.map m0) ⟨k, c, f, i, o⟩ = (lop.lambda ⟨k, c, f, i, o⟩).map fun a => (c, a) := by
        rcases hk with rfl | rfl <;> simp [contributions, hf]
      have h2 : Default.step lop srcs dst w post s ⟨k, c, f, i, o⟩ =
          { s with rl := accLocal w (lop.lambda ⟨k, c, f, i, o⟩) s.rl } := by
        rcases hk with rfl | rfl <;> simp [Default.step, hf]
      rw [hc, h2]
      refine ⟨hs, fun b i => ?_, hm.2⟩
      rw [entrySum_append, onCell_acc, ← add_assoc, ← add_assoc, hm.1 b i]
    · have hc : contributions lop (srcs.map m0) ⟨k, c, f, i, o⟩ = [] := by simp [contributions, hf]
      have h2 : Default.step lop srcs dst w post s ⟨k, c, f, i, o⟩ = s := by
        rcases hk with rfl | rfl <;> simp [Default.step, hf]
      rw [hc, h2, List.append_nil]
      exact ⟨hs, hm⟩
  case cellUV k hk c f i o =>
    by_cases hf : lop.flag k = true
    · have hc : contributions lop (srcs.map m0) ⟨k, c, f, i, o⟩ =
          (lop.alpha ⟨k, c, f, i, o⟩ (srcs.map fun a => m0 a c)).map fun a => (c, a) := by
        rcases hk with rfl | rfl | rfl <;> simp only [contributions, hf, if_true, ← hmap] <;> rfl
      have h2 : Default.step lop srcs dst w post s ⟨k, c, f, i, o⟩ =
          { s with rl := accLocal w (lop.alpha ⟨k, c, f, i, o⟩ s.xl) s.rl } := by
        rcases hk with rfl | rfl | rfl <;> simp [Default.step, hf]
      rw [hc, h2]
      refine ⟨hs, fun b i => ?_, hm.2⟩
      rw [← hm.2]
      rw [entrySum_append, onCell_acc, ← add_assoc, ← add_assoc, hm.1 b i]
    · have hc : contributions lop (srcs.map m0) ⟨k, c, f, i, o⟩ = [] := by simp [contributions, hf]
      have h2 : Default.step lop srcs dst w post s ⟨k, c, f, i, o⟩ = s := by
        rcases hk with rfl | rfl | rfl <;> simp [Default.step, hf]
      rw [hc, h2, List.append_nil]
      exact ⟨hs, hm⟩
  case vSkeleton c f i n =>
    by_cases hf : lop.flag .assembleVSkeleton = true
    · have hc : contributions lop (srcs.map m0) ⟨.assembleVSkeleton, c, f, i, n⟩ =
          (lop.lambdaSkeleton ⟨.assembleVSkeleton, c, f, i, n⟩).map fun p => (if p.1 = .inside then c else n, p.2) := by
        simp [contributions, hf]
      have h2 : Default.step lop srcs dst w post s ⟨.assembleVSkeleton, c, f, i, n⟩ =
          { s with rl := accLocal w (ofSide .inside (lop.lambdaSkeleton ⟨.assembleVSkeleton, c, f, i, n⟩)) s.rl
                   rn := accLocal w (ofSide .outside (lop.lambdaSkeleton ⟨.assembleVSkeleton, c, f, i, n⟩)) s.rn } := by
        simp [Default.step, hf]
      rw [hc, h2]
      refine ⟨hs, fun b i => ?_, hm.2⟩
      rw [entrySum_append, onCell_sides, ← add_assoc (m0 dst b i), ← hm.1 b i, add_assoc (s.mem dst b i)]
    · have hc : contributions lop (srcs.map m0) ⟨.assembleVSkeleton, c, f, i, n⟩ = [] := by simp [contributions, hf]
      have h2 : Default.step lop srcs dst w post s ⟨.assembleVSkeleton, c, f, i, n⟩ = s := by simp [Default.step, hf]
      rw [hc, h2, List.append_nil]
      exact ⟨hs, hm⟩
  case uvSkeleton c f i n =>
    by_cases hf : lop.flag .assembleUVSkeleton = true
    · have hc : contributions lop (srcs.map m0) ⟨.assembleUVSkeleton, c, f, i, n⟩ =
          (lop.alphaSkeleton ⟨.assembleUVSkeleton, c, f, i, n⟩ (srcs.map fun a => m0 a c) (srcs.map fun a => m0 a n)).map fun p =>
            (if p.1 = .inside then c else n, p.2) := by
        simp only [contributions, hf, if_true, ← hmap]; rfl
      have h2 : Default.step lop srcs dst w post s ⟨.assembleUVSkeleton, c, f, i, n⟩ =
          { s with rl := accLocal w (ofSide .inside (lop.alphaSkeleton ⟨.assembleUVSkeleton, c, f, i, n⟩ s.xl s.xn)) s.rl
                   rn := accLocal w (ofSide .outside (lop.alphaSkeleton ⟨.assembleUVSkeleton, c, f, i, n⟩ s.xl s.xn)) s.rn } := by
        simp [Default.step, hf]
      rw [hc, h2]
      refine ⟨hs, fun b i => ?_, hm.2.1, hm.2.2⟩
      rw [← hm.2.1, ← hm.2.2, entrySum_append, onCell_sides, ← add_assoc (m0 dst b i), ← hm.1 b i, add_assoc (s.mem dst b i)]
    · have hc : contributions lop (srcs.map m0) ⟨.assembleUVSkeleton, c, f, i, n⟩ = [] := by simp [contributions, hf]
      have h2 : Default.step lop srcs dst w post s ⟨.assembleUVSkeleton, c, f, i, n⟩ = s := by simp [Default.step, hf]
      rw [hc, h2, List.append_nil]
      exact ⟨hs, hm⟩

theorem default_run [Semiring K] (lop : Lop K) {srcs : List Nat} {dst : Nat} (hd : dst ∉ srcs) (w : K) (post : Vec K → Vec K)
    (m0 : Nat → Vec K) (es : List Event) : ∀ (p p' : Protocol), es.foldlM Protocol.step p = some p' →
    ∀ (l : List (Nat × Acc K)) (s : Default K), DefaultInv srcs dst w post m0 p l s →
    DefaultInv srcs dst w post m0 p' (l ++ es.flatMap (contributions lop (srcs.map m0)))
      (es.foldl (Default.step lop srcs dst w post) s) := by
  induction es with
  | nil =>
    intro p p' hp l s hm
    simp only [List.foldlM_nil, Option.pure_def, Option.some.injEq] at hp
    subst hp
    simpa using hm
  | cons e es ih =>
    intro p p' hp l s hm
    rw [List.foldlM_cons] at hp
    rcases Option.eq_none_or_eq_some (p.step e) with h | ⟨q, h⟩
    · rw [h] at hp; cases hp
    · rw [h] at hp
      rw [List.flatMap_cons, ← List.append_assoc, List.foldl_cons]
      exact ih q p' hp _ _ (default_step lop hd w post m0 p q e h l s hm)

end Verif.FastDG
