import Verif.Props.Transport
import Mathlib.Data.List.Perm.Basic

/-!
# C10 - C15: the arrays of a sample set
-/

set_option linter.unusedSectionVars false
set_option linter.unusedSimpArgs false
set_option autoImplicit false

namespace BET

namespace Spec

/-- `cs` are the parts that `p` processes get of `xs`: concatenated in rank order they
give `xs`, and no part is more than one entry longer than another. -/
def IsBalancedSplit {α : Type} (p : Nat) (xs : List α) (cs : List (List α)) : Prop :=
  cs.length = p ∧ cs.flatten = xs ∧ ∀ a ∈ cs, ∀ b ∈ cs, a.length ≤ b.length + 1

end Spec

open Spec

variable {K : Type}

theorem isBalancedSplit_arraySplit {α : Type} (p : Nat) (hp : 0 < p) (xs : List α) :
    IsBalancedSplit p xs (arraySplit p xs) := by
  refine ⟨length_arraySplit p xs, flatten_arraySplit p xs hp, ?_⟩
  have key : ∀ c ∈ arraySplit p xs, xs.length / p ≤ c.length ∧ c.length ≤ xs.length / p + 1 := by
    intro c hc
    have : c.length ∈ (arraySplit p xs).map List.length := List.mem_map.mpr ⟨c, hc, rfl⟩
    rw [arraySplit_lengths] at this
    obtain ⟨r, _, hr⟩ := List.mem_map.mp this
    rw [← hr, splitLen]
    split <;> omega
  intro a ha b hb
  have := key a ha
  have := key b hb
  omega

/-- **C10.** On a consistent set `global_to_local` succeeds and gives every process its
part of every array, and of the indices `0, …, n-1`. -/
theorem C10_global_to_local {s : SampleSet K} {n : Nat} (h : Consistent s n) (size : Nat)
    (hsize : 0 < size) :
    ∃ s', s.globalToLocal size = .ok s' ∧
      Each (fun _ g l => ∀ xs, g = some xs → ∃ cs, l = some cs ∧ IsBalancedSplit size xs cs)
        s.glob s'.loc ∧
      (∃ idx, s'.localIndex = some idx ∧ IsBalancedSplit size (List.range n) idx) ∧
      s'.glob = s.glob := by
  refine ⟨_, SampleSet.globalToLocal_ok h size, ?_, ⟨_, rfl, ?_⟩, rfl⟩
  · have key : ∀ (α : Type) (g : Option (List α)) (l : Option (Chunks α)) (xs : List α),
        g = some xs → ∃ cs, SampleSet.splitArr size g l = some cs ∧ IsBalancedSplit size xs cs := by
      rintro α _ l xs rfl
      exact ⟨_, rfl, isBalancedSplit_arraySplit size hsize xs⟩
    constructor <;> exact key _ _ _
  · exact isBalancedSplit_arraySplit size hsize _

/-- **C10.** The same partition is used for every array, so sample `i` of one array is
on the same process, in the same place, as sample `i` of the others. -/
theorem C10_same_partition {s s' : SampleSet K} {n : Nat} (h : Consistent s n) (size : Nat)
    (h' : s.globalToLocal size = .ok s') :
    Each (fun _ g l => ∀ xs, g = some xs → ∃ cs, l = some cs ∧
        ∃ idx, s'.localIndex = some idx ∧ SameShape idx cs)
      s.glob s'.loc := by
  rw [SampleSet.globalToLocal_ok h size] at h'
  cases h'
  have key : ∀ (α : Type) (g : Option (List α)) (l : Option (Chunks α)),
      (∀ v, g = some v → v.length = n) → ∀ (xs : List α),
      g = some xs → ∃ cs, SampleSet.splitArr size g l = some cs ∧ ∃ idx, (s.splitSet size n).localIndex = some idx ∧
          SameShape idx cs := by
    rintro α _ l hl xs rfl
    exact ⟨_, rfl, _, rfl, arraySplit_sameShape _ _ _ (by simp [hl xs rfl])⟩
  obtain ⟨hl, _, _⟩ := h
  exact ⟨key _ _ _ hl.values, key _ _ _ hl.volumes, key _ _ _ hl.probabilities,
    key _ _ _ hl.densities, key _ _ _ hl.jacobians, key _ _ _ hl.errorEstimates,
    key _ _ _ hl.right, key _ _ _ hl.left, key _ _ _ hl.width, key _ _ _ hl.kdtreeValues,
    key _ _ _ hl.radii, key _ _ _ hl.normalizedRadii, key _ _ _ hl.region,
    key _ _ _ hl.errorId⟩

/-- **C11.** `global_to_local` followed by `local_to_global` leaves every global array as
it was; an array that was absent both globally and locally stays absent. -/
theorem C11_round_trip {s : SampleSet K} {n : Nat} (h : Consistent s n) (size : Nat)
    (hsize : 0 < size) :
    ∃ s', s.globalToLocal size = .ok s' ∧
      Each (fun _ g g' => g.isSome → g' = g) s.glob s'.localToGlobal.glob ∧
      (Each (fun _ g l => g = none → l = none) s.glob s.loc → s'.localToGlobal.glob = s.glob) := by
  refine ⟨_, SampleSet.globalToLocal_ok h size, ?_, ?_⟩
  · have key : ∀ (α : Type) (g : Option (List α)) (l : Option (Chunks α)), g.isSome →
        SampleSet.gatherArr (SampleSet.splitArr size g l) g = g := by
      rintro α (_ | xs) l hg
      · cases hg
      · simp [getGlobalValues, flatten_arraySplit _ _ hsize]
    constructor <;> exact key _ _ _
  · intro he
    have key : ∀ (α : Type) (g : Option (List α)) (l : Option (Chunks α)), (g = none → l = none) →
        SampleSet.gatherArr (SampleSet.splitArr size g l) g = g := by
      rintro α (_ | xs) l hg
      · rw [hg rfl]; rfl
      · simp [getGlobalValues, flatten_arraySplit _ _ hsize]
    simp only [SampleSet.localToGlobal, SampleSet.splitSet, Arrays.map₂, key _ _ _ he.values,
      key _ _ _ he.volumes, key _ _ _ he.probabilities, key _ _ _ he.densities,
      key _ _ _ he.jacobians, key _ _ _ he.errorEstimates, key _ _ _ he.right, key _ _ _ he.left,
      key _ _ _ he.width, key _ _ _ he.kdtreeValues, key _ _ _ he.radii,
      key _ _ _ he.normalizedRadii, key _ _ _ he.region, key _ _ _ he.errorId]

/-- **C11.** Arrays that exist only on the processes survive `global_to_local`, and the
`local_to_global` after it makes them global. -/
theorem C11_local_only {s : SampleSet K} {n : Nat} (h : Consistent s n) (size : Nat) :
    ∃ s', s.globalToLocal size = .ok s' ∧
      Each₃ (fun _ g l l' => g = none → l' = l) s.glob s.loc s'.loc ∧
      Each₃ (fun _ g l g' => g = none → ∀ cs, l = some cs → g' = some cs.flatten)
        s.glob s.loc s'.localToGlobal.glob := by
  refine ⟨_, SampleSet.globalToLocal_ok h size, ?_, ?_⟩
  · have key : ∀ (α : Type) (g : Option (List α)) (l : Option (Chunks α)), g = none →
        SampleSet.splitArr size g l = l := by
      rintro α _ l rfl
      rfl
    constructor <;> exact key _ _ _
  · have key : ∀ (α : Type) (g : Option (List α)) (l : Option (Chunks α)), g = none →
        ∀ cs, l = some cs →
        SampleSet.gatherArr (SampleSet.splitArr size g l) g = some cs.flatten := by
      rintro α _ _ rfl cs rfl
      rfl
    constructor <;> exact key _ _ _

/-- **C11.** `local_to_global` makes every global array the concatenation of the local
ones in rank order, and leaves arrays without local part alone. -/
theorem C11_local_to_global (s : SampleSet K) :
    Each₃ (fun _ g l g' => (∀ cs, l = some cs → g' = some cs.flatten) ∧ (l = none → g' = g))
      s.glob s.loc s.localToGlobal.glob ∧ s.localToGlobal.loc = s.loc := by
  refine ⟨?_, rfl⟩
  have key : ∀ (α : Type) (g : Option (List α)) (l : Option (Chunks α)),
      (∀ cs, l = some cs → SampleSet.gatherArr l g = some cs.flatten) ∧ (l = none → SampleSet.gatherArr l g = g) := by
    intro α g l
    constructor
    · rintro cs rfl; rfl
    · rintro rfl; rfl
  constructor <;> exact key _ _ _

/-- **C12.** On a set with at least one global array, `check_num` returns `n` exactly
when all arrays that are present have `n` rows and the values have `dim` columns. -/
theorem C12_check_num_iff {s : SampleSet K} (hp : ¬ NonePresent s.glob) (size n : Nat) :
    s.checkNum size = .ok n ↔ AllLength s.glob n ∧ HasCols s.dim s.glob.values := by
  constructor
  · intro h
    rcases SampleSet.checkNum_ok h with h | h
    · exact ⟨h.1, h.2.2⟩
    · exact absurd h hp
  · rintro ⟨h1, h2⟩
    exact SampleSet.checkNum_consistent ⟨h1, hp, h2⟩

/-- **C12.** Otherwise it raises: `length_not_matching` if two arrays have different
numbers of rows, and else `dim_not_matching`. -/
theorem C12_check_num_error {s : SampleSet K} (hp : ¬ NonePresent s.glob) (size : Nat) :
    ((¬ ∃ n, AllLength s.glob n) → s.checkNum size = .error .lengthNotMatching) ∧
    (∀ n, AllLength s.glob n → ¬ HasCols s.dim s.glob.values →
      s.checkNum size = .error .dimNotMatching) := by
  constructor
  · intro hno
    unfold SampleSet.checkNum
    cases hl : SampleSet.checkNumLoop (s.glob.toList List.length) none with
    | error e =>
      rw [SampleSet.checkNumLoop_error _ _ _ hl]
      rfl
    | ok r =>
      rcases (SampleSet.checkNumLoop_none _ _).mp hl with ⟨_, hn⟩ | ⟨m, rfl, hm, hall⟩
      · exact absurd ((SampleSet.nonePresent_iff _ _).mp hn) hp
      · exact absurd ⟨m, (SampleSet.allLength_iff _ _).mp hall⟩ hno
  · intro n hn hc
    have hc' : ¬ SampleSet.colsOk s.dim s.glob.values = true :=
      fun h => hc ((SampleSet.colsOk_iff _ _).mp h)
    unfold SampleSet.checkNum
    cases hl : SampleSet.checkNumLoop (s.glob.toList List.length) none with
    | error e =>
      exfalso
      have hok : SampleSet.checkNumLoop (s.glob.toList List.length) none = .ok (some n) := by
        rw [SampleSet.checkNumLoop_none]
        refine Or.inr ⟨n, rfl, ?_, (SampleSet.allLength_iff _ _).mpr hn⟩
        by_contra hno
        apply hp
        rw [← SampleSet.nonePresent_iff List.length]
        intro x hx
        cases x with
        | none => rfl
        | some m => exact absurd ((SampleSet.allLength_iff _ _).mpr hn m hx ▸ hx) hno
      rw [hok] at hl
      cases hl
    | ok r =>
      simp only [ok_bind, hc']
      rfl

theorem checkNumLocal_ok {s : SampleSet K} (hp : NonePresent s.glob) {ns : List Nat}
    (hl : AllShape s.loc ns) (hsome : ¬ NonePresent s.loc) (r : Nat) :
    s.checkNumLocal r = .ok (some (ns.getD r 0)) ∧ SampleSet.colsOk s.dim s.glob.values = true := by
  have hcols : SampleSet.colsOk s.dim s.glob.values = true := by
    rw [hp.values]; rfl
  refine ⟨?_, hcols⟩
  have hlen : ∀ {α : Type} (v : Chunks α), v.map List.length = ns →
      (v.getD r []).length = ns.getD r 0 := by
    intro α v hv
    rw [← hv]
    simp only [List.getD_eq_getElem?_getD, List.getElem?_map]
    cases v[r]? <;> rfl
  have : SampleSet.checkNumLoop (s.loc.toList (fun c => (c.getD r []).length)) none =
      .ok (some (ns.getD r 0)) := by
    rw [SampleSet.checkNumLoop_none]
    have hall : ∀ m, some m ∈ s.loc.toList (fun c => (c.getD r []).length) →
        m = ns.getD r 0 := by
      intro m hm
      simp only [Arrays.toList, List.mem_cons, List.not_mem_nil, or_false,
        Option.map_eq_some_iff, eq_comm (a := some m)] at hm
      rcases hm with ⟨v, hv, rfl⟩ | ⟨v, hv, rfl⟩ | ⟨v, hv, rfl⟩ | ⟨v, hv, rfl⟩ | ⟨v, hv, rfl⟩ |
        ⟨v, hv, rfl⟩ | ⟨v, hv, rfl⟩ | ⟨v, hv, rfl⟩ | ⟨v, hv, rfl⟩ | ⟨v, hv, rfl⟩ | ⟨v, hv, rfl⟩ |
        ⟨v, hv, rfl⟩ | ⟨v, hv, rfl⟩ | ⟨v, hv, rfl⟩
      · exact hlen v (hl.values v hv)
      · exact hlen v (hl.volumes v hv)
      · exact hlen v (hl.probabilities v hv)
      · exact hlen v (hl.densities v hv)
      · exact hlen v (hl.jacobians v hv)
      · exact hlen v (hl.errorEstimates v hv)
      · exact hlen v (hl.right v hv)
      · exact hlen v (hl.left v hv)
      · exact hlen v (hl.width v hv)
      · exact hlen v (hl.kdtreeValues v hv)
      · exact hlen v (hl.radii v hv)
      · exact hlen v (hl.normalizedRadii v hv)
      · exact hlen v (hl.region v hv)
      · exact hlen v (hl.errorId v hv)
    refine Or.inr ⟨_, rfl, ?_, hall⟩
    by_contra hno
    apply hsome
    rw [← SampleSet.nonePresent_iff (fun c => (c.getD r []).length)]
    intro x hx
    cases x with
    | none => rfl
    | some m => exact absurd (hall m hx ▸ hx) hno
  unfold SampleSet.checkNumLocal
  rw [this]
  simp [hcols, pure, Except.pure]

/-- **C12.** A set with no global array: the numbers of local rows are added up over the
processes (`ns[r]` on process `r`; 0 when there is no array at all). -/
theorem C12_check_num_local {s : SampleSet K} (hp : NonePresent s.glob) (ns : List Nat)
    (hl : AllShape s.loc ns) (hsome : ¬ NonePresent s.loc) :
    s.checkNum ns.length = .ok ns.sum := by
  have hloop : SampleSet.checkNumLoop (s.glob.toList List.length) none = .ok none := by
    rw [SampleSet.checkNumLoop_none]
    exact Or.inl ⟨rfl, (SampleSet.nonePresent_iff _ _).mpr hp⟩
  have hcols : SampleSet.colsOk s.dim s.glob.values = true := by
    rw [hp.values]; rfl
  have hr := fun r => (checkNumLocal_ok hp hl hsome r).1
  have hlocs : ∀ l : List Nat, s.checkNumLocals l = .ok (l.map fun r => ns.getD r 0) := by
    intro l
    induction l with
    | nil => rfl
    | cons a l ih => simp [SampleSet.checkNumLocals, hr, ih, pure, Except.pure]
  unfold SampleSet.checkNum
  rw [hloop]
  simp only [ok_bind, hcols, if_true, hlocs, pure, Except.pure]
  congr 1
  unfold allreduceSum
  congr 1
  apply List.ext_getElem
  · simp
  · intro i h1 h2
    simp [h2]

/-! ### C13 -/

theorem allLength_take {a : Arrays List K} {n : Nat} (h : AllLength a n) (k : Nat) :
    AllLength (a.map fun x => x.map (List.take k)) (min k n) := by
  have key : ∀ (α : Type) (o : Option (List α)), (∀ v, o = some v → v.length = n) →
      ∀ v, o.map (List.take k) = some v → v.length = min k n := by
    rintro α (_ | x) hx v hv
    · cases hv
    · cases hv
      simp [hx x rfl]
  exact ⟨key _ _ h.values, key _ _ h.volumes, key _ _ h.probabilities, key _ _ h.densities,
    key _ _ h.jacobians, key _ _ h.errorEstimates, key _ _ h.right, key _ _ h.left,
    key _ _ h.width, key _ _ h.kdtreeValues, key _ _ h.radii, key _ _ h.normalizedRadii,
    key _ _ h.region, key _ _ h.errorId⟩

theorem clip_ok {s : SampleSet K} {n : Nat} (h : Consistent s n) {v : List (List K)}
    (hv : s.glob.values = some v) (size k : Nat) :
    ∃ s', s.clip size k = .ok s' ∧ Consistent s' (min k n) ∧
      s'.glob = { s.glob.map (fun a => a.map (List.take k)) with
        kdtreeValues := some (v.take k) } ∧
      s'.kdtree = some (v.take k) ∧ s'.dim = s.dim ∧ s'.domain = s.domain ∧ s'.kind = s.kind ∧
      s'.pNorm = s.pNorm := by
  have hvl : v.length = n := h.1.values v hv
  have hcons : Consistent { s with glob := s.glob.map (fun a => a.map (List.take k)) }
      (min k n) := by
    refine ⟨allLength_take h.1 k, ?_, ?_⟩
    · intro hn
      have := hn.values
      simp [Arrays.map, hv] at this
    · intro w hw row hrow
      simp only [Arrays.map, hv, Option.map_some, Option.some.injEq] at hw
      subst hw
      exact h.2.2 v hv row (List.mem_of_mem_take hrow)
  have hset : ∀ t : SampleSet K, t.glob = s.glob.map (fun a => a.map (List.take k)) →
      t.setKdtree = .ok { t with kdtree := some (v.take k), glob := { t.glob with
        kdtreeValues := some (v.take k) } } := by
    intro t ht
    unfold SampleSet.setKdtree
    have : t.glob.values = some (v.take k) := by rw [ht]; simp [Arrays.map, hv]
    rw [this]
    rfl
  have hfin : Consistent { s with
      kdtree := some (v.take k)
      glob := { s.glob.map (fun a => a.map (List.take k)) with
        kdtreeValues := some (v.take k) } } (min k n) := by
    obtain ⟨hl, _, hcols⟩ := hcons
    refine ⟨?_, ?_, hcols⟩
    · exact ⟨hl.values, hl.volumes, hl.probabilities, hl.densities, hl.jacobians,
        hl.errorEstimates, hl.right, hl.left, hl.width,
        fun w hw => by cases hw; simp [hvl], hl.radii,
        hl.normalizedRadii, hl.region, hl.errorId⟩
    · intro hn
      exact nomatch hn.kdtreeValues
  unfold SampleSet.clip
  rw [SampleSet.checkNum_consistent h]
  simp only [ok_bind, hv, Option.isNone_some, Bool.false_eq_true, if_false]
  split
  · rw [SampleSet.globalToLocal_ok hcons]
    simp only [ok_bind]
    rw [hset _ rfl]
    exact ⟨_, rfl, hfin, rfl, rfl, rfl, rfl, rfl, rfl⟩
  · rw [hset _ rfl]
    exact ⟨_, rfl, hfin, rfl, rfl, rfl, rfl, rfl, rfl⟩

/-- **C13.** `clip(k)` returns a consistent set of `min k n` samples each of whose arrays
is the first part of the original one (the search tree is that of the clipped
values).  Clipping works on a deep copy. -/
theorem C13_clip_prefix {s : SampleSet K} {n : Nat} (h : Consistent s n) {v : List (List K)}
    (hv : s.glob.values = some v) (size k : Nat) :
    ∃ s', s.clip size k = .ok s' ∧ Consistent s' (min k n) ∧
      Each (fun _ g g' => g' = g.map (List.take k))
        ({ s.glob with kdtreeValues := some v } : Arrays List K) s'.glob ∧
      s'.kdtree = some (v.take k) ∧ s'.dim = s.dim ∧ s'.domain = s.domain := by
  obtain ⟨s', h1, h2, h3, h4, h5, h6, _⟩ := clip_ok h hv size k
  refine ⟨s', h1, h2, ?_, h4, h5, h6⟩
  rw [h3]
  constructor <;> rfl

/-- **C13.** Clipping at `k ≥ n` keeps every array. -/
theorem C13_clip_all {s : SampleSet K} {n : Nat} (h : Consistent s n) {v : List (List K)}
    (hv : s.glob.values = some v) (size k : Nat) (hk : n ≤ k) :
    ∃ s', s.clip size k = .ok s' ∧ s'.glob = { s.glob with kdtreeValues := some v } := by
  obtain ⟨s', h1, h2, h3, _⟩ := clip_ok h hv size k
  refine ⟨s', h1, ?_⟩
  rw [h3]
  have key : ∀ (α : Type) (o : Option (List α)), (∀ v, o = some v → v.length = n) →
      o.map (List.take k) = o := by
    rintro α (_ | x) hx
    · rfl
    · simp [List.take_of_length_le (show x.length ≤ k by rw [hx x rfl]; exact hk)]
  have hl := h.1
  simp only [Arrays.map, key _ _ hl.values, key _ _ hl.volumes, key _ _ hl.probabilities,
    key _ _ hl.densities, key _ _ hl.jacobians, key _ _ hl.errorEstimates, key _ _ hl.right,
    key _ _ hl.left, key _ _ hl.width, key _ _ hl.radii, key _ _ hl.normalizedRadii,
    key _ _ hl.region, key _ _ hl.errorId,
    List.take_of_length_le (show v.length ≤ k by rw [hl.values v hv]; exact hk)]

/-- **C13.** Clipping twice is clipping once to the smaller number. -/
theorem C13_clip_clip {s : SampleSet K} {n : Nat} (h : Consistent s n) {v : List (List K)}
    (hv : s.glob.values = some v) (size k₁ k₂ : Nat) :
    ∃ s₁ s₂ s₃, s.clip size k₁ = .ok s₁ ∧ s₁.clip size k₂ = .ok s₂ ∧
      s.clip size (min k₁ k₂) = .ok s₃ ∧ s₂.glob = s₃.glob ∧ s₂.kdtree = s₃.kdtree := by
  obtain ⟨s₁, h1, hc1, hg1, ht1, _⟩ := clip_ok h hv size k₁
  have hv1 : s₁.glob.values = some (v.take k₁) := by rw [hg1]; simp [Arrays.map, hv]
  obtain ⟨s₂, h2, hc2, hg2, ht2, _⟩ := clip_ok hc1 hv1 size k₂
  obtain ⟨s₃, h3, hc3, hg3, ht3, _⟩ := clip_ok h hv size (min k₁ k₂)
  have hmin : ∀ {α : Type} (x : List α), (x.take k₁).take k₂ = x.take (min k₁ k₂) := by
    intro α x; rw [List.take_take, Nat.min_comm]
  refine ⟨s₁, s₂, s₃, h1, h2, h3, ?_, ?_⟩
  · rw [hg2, hg1, hg3]
    simp only [Arrays.map, Option.map_map, Function.comp_def, hmin]
  · rw [ht2, ht3, hmin]

/-! ### C14 -/

theorem perm_flatten_zipWith_append {α : Type} (a b : List (List α)) (h : a.length = b.length) :
    (List.zipWith (· ++ ·) a b).flatten.Perm (a.flatten ++ b.flatten) := by
  induction a generalizing b with
  | nil =>
    cases b with
    | nil => simp
    | cons => simp at h
  | cons x a ih =>
    cases b with
    | nil => simp at h
    | cons y b =>
      have ih := ih b (by simpa using h)
      simp only [List.zipWith_cons_cons, List.flatten_cons, List.append_assoc]
      refine List.Perm.append_left x ?_
      refine (List.Perm.append_left y ih).trans ?_
      rw [← List.append_assoc, ← List.append_assoc]
      exact List.Perm.append_right _ List.perm_append_comm

section merge
variable [DecidableEq K]

theorem merge_ok {a b : SampleSet K} {size : Nat} (hd : a.dim = b.dim)
    (hdom : a.domain = none ∨ b.domain = none ∨ a.domain = b.domain) {n m : Nat}
    (ha : Consistent a n) (hb : Consistent b m) {va vb : List (List K)}
    (hva : a.glob.values = some va) (hvb : b.glob.values = some vb)
    (hla : a.loc.values = none) (hlb : b.loc.values = none) :
    a.merge size b = .ok ({ dim := a.dim
                            domain := a.domain <|> b.domain
                            loc := { values := some (List.zipWith (· ++ ·) (arraySplit size va)
                              (arraySplit size vb)) }
                            glob := { values := some (List.zipWith (· ++ ·) (arraySplit size va)
                              (arraySplit size vb)).flatten } },
      a.splitSet size n, b.splitSet size m) := by
  have h1 : ¬ (a.dim ≠ b.dim) := not_not.mpr hd
  have h2 : ¬ (a.domain.isSome ∧ b.domain.isSome ∧ a.domain ≠ b.domain) := by
    rintro ⟨h1, h2, h3⟩
    rcases hdom with h | h | h
    · simp [h] at h1
    · simp [h] at h2
    · exact h3 h
  have hxa : (a.splitSet size n).loc.values = some (arraySplit size va) := by
    simp [SampleSet.splitSet, Arrays.map₂, hva]
  have hxb : (b.splitSet size m).loc.values = some (arraySplit size vb) := by
    simp [SampleSet.splitSet, Arrays.map₂, hvb]
  unfold SampleSet.merge
  simp only [raiseIf_false h1, raiseIf_false h2, ok_bind, SampleSet.localized_none size hla,
    SampleSet.localized_none size hlb, SampleSet.globalToLocal_ok ha,
    SampleSet.globalToLocal_ok hb, hxa, hxb, orErr_some]
  cases hda : a.domain <;> simp [SampleSet.localToGlobal, Arrays.map₂, getGlobalValues, pure,
    Except.pure, SampleSet.splitSet, hda]

/-- Two sample sets that `merge` accepts: consistent, with values of the same dimension, not
yet distributed, and with the same domain where both have one. -/
structure Mergeable (a b : SampleSet K) (n m : Nat) : Prop where
  dims : a.dim = b.dim
  domains : a.domain = none ∨ b.domain = none ∨ a.domain = b.domain
  cons₁ : Consistent a n
  cons₂ : Consistent b m
  values₁ : a.glob.values.isSome
  values₂ : b.glob.values.isSome
  loc₁ : a.loc.values = none
  loc₂ : b.loc.values = none

/-- **C14.** The merged set has the samples of both sets, each as often as they have it;
on one process, first those of the first and then those of the second.  No other
per-sample array is carried over, so none can be paired with the wrong sample. -/
theorem C14_merge_union {a b : SampleSet K} {size : Nat} (hsize : 0 < size) (hd : a.dim = b.dim)
    (hdom : a.domain = none ∨ b.domain = none ∨ a.domain = b.domain) {n m : Nat}
    (ha : Consistent a n) (hb : Consistent b m) {va vb : List (List K)}
    (hva : a.glob.values = some va) (hvb : b.glob.values = some vb)
    (hla : a.loc.values = none) (hlb : b.loc.values = none) :
    ∃ r a' b' v, a.merge size b = .ok (r, a', b') ∧ r.glob.values = some v ∧
      v.Perm (va ++ vb) ∧ (size = 1 → v = va ++ vb) ∧ Consistent r (n + m) ∧ r.dim = a.dim ∧
      (a.domain.isSome → r.domain = a.domain) ∧ (b.domain.isSome → r.domain = b.domain) ∧
      NonePresent { r.glob with values := none } := by
  have hperm : (List.zipWith (· ++ ·) (arraySplit size va) (arraySplit size vb)).flatten.Perm
      (va ++ vb) := by
    refine (perm_flatten_zipWith_append _ _ (by simp [length_arraySplit])).trans ?_
    rw [flatten_arraySplit _ _ hsize, flatten_arraySplit _ _ hsize]
  refine ⟨_, _, _, _, merge_ok hd hdom ha hb hva hvb hla hlb, rfl, hperm, ?_, ?_, rfl, ?_, ?_, ?_⟩
  · rintro rfl
    simp [arraySplit_one]
  · refine ⟨?_, fun hn => (by have := hn.values; cases this), ?_⟩
    · constructor <;> intro v hv <;> cases hv
      rw [hperm.length_eq, List.length_append, ha.1.values va hva, hb.1.values vb hvb]
    · intro v hv row hrow
      cases hv
      rcases List.mem_append.mp (hperm.subset hrow) with h | h
      · exact ha.2.2 va hva row h
      · have := hb.2.2 vb hvb row h
        exact this.trans hd.symm
  · intro h
    obtain ⟨d, hda⟩ := Option.isSome_iff_exists.mp h
    simp [hda]
  · intro h
    obtain ⟨d, hdb⟩ := Option.isSome_iff_exists.mp h
    rcases hdom with h' | h' | h'
    · simp [h']
    · simp [h'] at h
    · simp [h', hdb]
  · constructor <;> rfl

/-- **C14.** Sets of different dimension, or with different domains, are rejected. -/
theorem C14_merge_mismatch {a b : SampleSet K} (size : Nat) :
    (a.dim ≠ b.dim → a.merge size b = .error .dimNotMatching) ∧
    (a.dim = b.dim → ∀ d e, a.domain = some d → b.domain = some e → d ≠ e →
      a.merge size b = .error .domainNotMatching) := by
  constructor
  · intro h
    unfold SampleSet.merge
    simp [raiseIf, h]
  · intro h d e hd he hne
    unfold SampleSet.merge
    simp [raiseIf, h, hd, he, hne]

end merge

theorem sameCols_iff {a b : List (List K)} :
    SampleSet.sameCols a b = true ↔ ∀ r ∈ a, ∀ r' ∈ b, r.length = r'.length := by
  simp [SampleSet.sameCols]

theorem appendValues_eq_ok {s s' : SampleSet K} {v : List (List K)} :
    s.appendValues v = .ok s' ↔ ∃ old, s.glob.values = some old ∧
      (∀ r ∈ old, ∀ r' ∈ v, r.length = r'.length) ∧
      s' = { s with glob := { s.glob with values := some (old ++ v) } } := by
  simp only [SampleSet.appendValues, bind_eq_ok, orErr_eq_ok, raiseIf_eq_ok, pure_eq_ok,
    Bool.not_eq_false, sameCols_iff]
  constructor
  · rintro ⟨old, h, _, h2, h3⟩
    exact ⟨old, h, h2, h3.symm⟩
  · rintro ⟨old, h, h2, h3⟩
    exact ⟨old, h, (), h2, h3.symm⟩

/-- **C15.** `append_values` keeps the rows there are and puts the new ones after them, when they
have as many columns; nothing else changes. -/
theorem C15_append {s : SampleSet K} {old : List (List K)} (h : s.glob.values = some old)
    (hold : ∀ r ∈ old, r.length = s.dim) {v : List (List K)} (hv : ∀ r ∈ v, r.length = s.dim) :
    ∃ s' w, s.appendValues v = .ok s' ∧ s'.glob.values = some w ∧
      w.take old.length = old ∧ w.drop old.length = v ∧
      s' = { s with glob := { s.glob with values := some w } } := by
  refine ⟨_, old ++ v, ?_, rfl, by simp, by simp, rfl⟩
  exact appendValues_eq_ok.2 ⟨old, h, fun r hr r' hr' => (hold r hr).trans (hv r' hr').symm, rfl⟩

/-- **C15.** Rows with another number of columns, and rows for a set without values, are rejected
with `ValueError`. -/
theorem C15_append_rejects {s : SampleSet K} {v : List (List K)} :
    (s.glob.values = none → s.appendValues v = .error .valueError) ∧
    (∀ old r r', s.glob.values = some old → r ∈ old → r' ∈ v → r.length ≠ r'.length →
      s.appendValues v = .error .valueError) := by
  constructor
  · intro h
    simp [SampleSet.appendValues, h, orErr]
  · intro old r r' h hr hr' hne
    have hc : SampleSet.sameCols old v = false := by
      rw [Bool.eq_false_iff, ne_eq, sameCols_iff]
      exact fun hall => hne (hall r hr r' hr')
    simp only [SampleSet.appendValues, h, orErr_some, ok_bind, raiseIf, hc, if_true]
    rfl

/-- **C15.** After appending at least one row to a consistent set, `check_num` raises
`length_not_matching` if any other array is present, and otherwise returns the new
number (when the new rows have the right number of columns). -/
theorem C15_append_check {s s' : SampleSet K} {n : Nat} (hc : Consistent s n)
    {old : List (List K)} (h : s.glob.values = some old) {v : List (List K)} (hv : v ≠ [])
    (ha : s.appendValues v = .ok s') (size : Nat) :
    (¬ NonePresent { s.glob with values := none } →
      s'.checkNum size = .error .lengthNotMatching) ∧
    (NonePresent { s.glob with values := none } → (∀ row ∈ v, row.length = s.dim) →
      s'.checkNum size = .ok (n + v.length)) := by
  have hs' : s' = { s with glob := { s.glob with values := some (old ++ v) } } := by
    obtain ⟨o, ho, _, rfl⟩ := appendValues_eq_ok.1 ha
    rw [h] at ho
    cases ho
    rfl
  have hol : old.length = n := hc.1.values old h
  have hvl : 0 < v.length := List.length_pos_iff.mpr hv
  subst hs'
  constructor
  · intro hne
    refine (C12_check_num_error (fun hn => (by have := hn.values; cases this)) size).1 ?_
    rintro ⟨k, hk⟩
    have hk0 := hk.values _ rfl
    simp only [List.length_append] at hk0
    apply hne
    have key : ∀ (α : Type) (o : Option (List α)), (∀ x, o = some x → x.length = n) →
        (∀ x, o = some x → x.length = k) → o = none := by
      rintro α (_ | x) h1 h2
      · rfl
      · have := h1 x rfl; have := h2 x rfl; omega
    have hl := hc.1
    exact ⟨rfl, key _ _ hl.volumes hk.volumes, key _ _ hl.probabilities hk.probabilities,
      key _ _ hl.densities hk.densities, key _ _ hl.jacobians hk.jacobians,
      key _ _ hl.errorEstimates hk.errorEstimates, key _ _ hl.right hk.right,
      key _ _ hl.left hk.left, key _ _ hl.width hk.width, key _ _ hl.kdtreeValues hk.kdtreeValues,
      key _ _ hl.radii hk.radii, key _ _ hl.normalizedRadii hk.normalizedRadii,
      key _ _ hl.region hk.region, key _ _ hl.errorId hk.errorId⟩
  · intro hn hrows
    refine (C12_check_num_iff (fun hn => (by have := hn.values; cases this)) size _).mpr ⟨?_, ?_⟩
    · have h1 : s.glob.volumes = none := hn.volumes
      have h2 : s.glob.probabilities = none := hn.probabilities
      have h3 : s.glob.densities = none := hn.densities
      have h4 : s.glob.jacobians = none := hn.jacobians
      have h5 : s.glob.errorEstimates = none := hn.errorEstimates
      have h6 : s.glob.right = none := hn.right
      have h7 : s.glob.left = none := hn.left
      have h8 : s.glob.width = none := hn.width
      have h9 : s.glob.kdtreeValues = none := hn.kdtreeValues
      have h10 : s.glob.radii = none := hn.radii
      have h11 : s.glob.normalizedRadii = none := hn.normalizedRadii
      have h12 : s.glob.region = none := hn.region
      have h13 : s.glob.errorId = none := hn.errorId
      refine ⟨?_, by simp [h1], by simp [h2], by simp [h3], by simp [h4], by simp [h5],
        by simp [h6], by simp [h7], by simp [h8], by simp [h9], by simp [h10], by simp [h11],
        by simp [h12], by simp [h13]⟩
      intro w hw
      cases hw
      simp [hol]
    · intro w hw row hrow
      cases hw
      rcases List.mem_append.mp hrow with hr | hr
      · exact hc.2.2 old h row hr
      · exact hrows row hr

end BET

namespace BET.Ex

open BET.Spec

def fullSet : SampleSet ℚ := { dim := 2, domain := some [(0, 1), (0, 2)], glob :=
  { values := some [[0, 1], [1/2, 2], [1, 0]], volumes := some [1/2, 1/4, 1/4],
    probabilities := some [1/3, 1/3, 1/3] } }

def otherSet : SampleSet ℚ := { dim := 2, domain := some [(0, 1), (0, 2)], glob :=
  { values := some [[1/4, 1/4], [3/4, 1]] } }

theorem consistentFull : Consistent fullSet 3 := consistent_of _ _ rfl rfl

/-- C10, C11: three samples on two processes. -/
example : (fullSet.globalToLocal 2).toOption.bind (·.loc.volumes) = some [[1/2, 1/4], [1/4]] := by
  decide +kernel

example : (fullSet.globalToLocal 2).toOption.bind (·.localToGlobal.glob.values) =
    some [[0, 1], [1/2, 2], [1, 0]] := by decide +kernel

/-- C11: densities that exist only on the processes. -/
example : ({ fullSet with loc := { densities := some [[1, 2], [3]] } }.globalToLocal 2).toOption.bind
    (·.localToGlobal.glob.densities) = some [1, 2, 3] := by decide +kernel

/-- C12: both error cases and a set with local arrays only. -/
example : errOf ({ fullSet with glob := { fullSet.glob with volumes := some [1] } }.checkNum 1) =
    some .lengthNotMatching := by decide +kernel

example : errOf ({ fullSet with dim := 3 }.checkNum 1) = some .dimNotMatching := by decide +kernel

def localSet : SampleSet ℚ := { dim := 1, loc := { values := some [[[0], [1]], [], [[2]]] } }

example : NonePresent localSet.glob ∧ AllShape localSet.loc [2, 0, 1] ∧
    ¬ NonePresent localSet.loc := by
  refine ⟨by constructor <;> rfl, ?_, fun h => nomatch h.values⟩
  constructor <;> intro v hv <;> cases hv
  rfl

/-- C13. -/
example : (fullSet.clip 1 2).toOption.bind (·.glob.probabilities) = some [1/3, 1/3] := by
  decide +kernel

/-- C14: on two processes the order is interleaved. -/
example : (fullSet.merge 2 otherSet).toOption.bind (·.1.glob.values) =
    some [[0, 1], [1/2, 2], [1/4, 1/4], [1, 0], [3/4, 1]] := by decide +kernel

example : Consistent otherSet 2 ∧ fullSet.domain = otherSet.domain :=
  ⟨consistent_of _ _ rfl rfl, rfl⟩

/-- C15. -/
example : ¬ NonePresent { fullSet.glob with values := none } := fun h => nomatch h.volumes

example : NonePresent { otherSet.glob with values := none } := by constructor <;> rfl

example : ((fullSet.appendValues [[1/3, 1/3]]).toOption.bind (·.glob.values)) =
    some [[0, 1], [1/2, 2], [1, 0], [1/3, 1/3]] := by decide +kernel

end BET.Ex
