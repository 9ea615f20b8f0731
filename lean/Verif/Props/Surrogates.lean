import Verif.Model.Surrogates
import Verif.Props.Sampler
import Verif.Props.Transport
import Mathlib.Tactic.Ring

/-!
# C47, C48: values of piecewise polynomial surrogates
-/

set_option linter.unusedSectionVars false
set_option linter.unusedSimpArgs false
set_option autoImplicit false

namespace BET

open Spec

variable {K : Type} [Field K] [LinearOrder K]

/-! ### Vocabulary -/

/-- Row by row, `w` holds the entries of `a` that `ptr` names. -/
def Spec.RowsAt {α : Type} (a : List α) (ptr : Chunks Nat) (w : Chunks α) : Prop :=
  List.Forall₂ (List.Forall₂ fun (j : Nat) q => a[j]? = some q) ptr w

/-- The inner product of two vectors. -/
def Spec.dot (a b : List K) : K := (List.zipWith (· * ·) a b).sum

/-- The affine model `x ↦ A x + b`. -/
def Spec.affine (A : List (List K)) (b x : List K) : List K :=
  List.zipWith (fun row c => dot row x + c) A b

/-- The distance of two points of the same dimension is positive unless they are equal. -/
def Spec.Separates (dist : List K → List K → K) : Prop :=
  (∀ x y, 0 ≤ dist x y) ∧ ∀ x y, x.length = y.length → (dist x y = 0 ↔ x = y)

/-! ### What generating a surrogate does -/

theorem takeRows_eq_ok {α : Type} {a : List α} {ptr : Chunks Nat} {w : Chunks α}
    (h : takeRows a ptr = .ok w) : RowsAt a ptr w := by
  unfold takeRows at h
  rw [mapM_eq_ok] at h
  refine h.imp fun c d hcd => ?_
  rw [mapM_eq_ok] at hcd
  exact hcd.imp fun j q hj => by rwa [getIdx_eq_ok] at hj

theorem takeRows_total {α : Type} {a : List α} {ptr : Chunks Nat}
    (h : ∀ c ∈ ptr, ∀ j ∈ c, j < a.length) : ∃ w, takeRows a ptr = .ok w := by
  unfold takeRows
  refine mapM_total fun c hc => mapM_total fun j hj => ?_
  have := h c hc j hj
  exact ⟨a[j], by rw [getIdx_eq_ok]; exact List.getElem?_eq_getElem this⟩

theorem localized_values {size : Nat} (hsize : 0 < size) {s s' : SampleSet K} {v : List (List K)}
    (hv : s.glob.values = some v) (hcur : LocalCurrent s v) (h : s.localized size = .ok s') :
    s'.glob = s.glob ∧ ∃ c, s'.loc.values = some c ∧ c.flatten = v := by
  rcases hcur with hn | ⟨c, hc, hflat⟩
  · rw [SampleSet.localized_none size hn] at h
    simp only [SampleSet.globalToLocal, bind_eq_ok, pure_eq_ok] at h
    obtain ⟨n, -, rfl⟩ := h
    refine ⟨rfl, arraySplit size v, ?_, flatten_arraySplit _ _ hsize⟩
    simp [Arrays.map₂, hv, SampleSet.splitArr]
  · rw [SampleSet.localized_some size hc] at h
    cases h
    exact ⟨rfl, c, hc, hflat⟩

/-- Everything that is known after a successful call. -/
theorem generate_inv {G : Geometry K} {size : Nat} {d : Disc K} {new : SampleSet K} {order : Nat}
    {S : Surrogate K} (h : generateForInputSet G size d new order = .ok S)
    {inp : SampleSet K} {m : Nat} (hi : d.input = some inp) (hr : Ready inp m) :
    ∃ out em xs w o, d.output = some out ∧ S.disc = d ∧
      (inheritDomain inp new).localized size = .ok em ∧ em.loc.values = some xs ∧
      S.ptr = xs.map (fun c => c.map (inp.cell G)) ∧
      surrogateValues order inp out xs S.ptr = .ok w ∧
      o.loc.values = some w ∧ o.dim = out.dim ∧
      surrogateErrors out S.ptr { dim := out.dim, loc := { values := some w } } = .ok o ∧
      S.surr = { input := some em, output := some o, outputProb := d.outputProb } ∧
      (order = 0 ∨ order = 1) := by
  simp only [generateForInputSet, bind_eq_ok, raiseIf_eq_ok, orErr_eq_ok, pure_eq_ok] at h
  obtain ⟨_, hord, _, hcn, inp', hi', _, hdim, out, hout, dummy, hdum, dummy', hii, ptr, hptr, em,
    hem, xs, hxs, w, hw, o, ho, o', ho', surr, hnew, rfl⟩ := h
  rw [hi] at hi'
  cases hi'
  simp only [Disc.setEmulatedInput, hi] at hdum
  split at hdum
  swap
  · cases hdum
  cases hdum
  simp only [Disc.setIiPtr, bind_eq_ok, orErr_eq_ok, pure_eq_ok] at hii
  obtain ⟨em₀, hem₀, em₁, hloc, i', hi', x, hx, ⟨i₁, p⟩, hq, rfl⟩ := hii
  simp only [Option.some.injEq] at hem₀
  subst hem₀
  simp only [Option.some.injEq] at hi'
  subst hi'
  obtain ⟨s', hq', _⟩ := SampleSet.query_ready (G := G) (size := size) hr x
  rw [hq] at hq'
  simp only [Except.ok.injEq, Prod.mk.injEq] at hq'
  simp only [Bool.false_eq_true, if_false, Option.some.injEq] at hptr hem
  subst hem
  rw [hx] at hxs
  cases hxs
  have hpx : ptr = xs.map fun c => c.map (inp.cell G) := by rw [← hptr]; exact hq'.2
  have hset := setValuesLocal_eq_ok ho
  have ho2 : o = { dim := out.dim, loc := { values := some w } } := hset.1
  subst ho2
  refine ⟨out, em₁, xs, w, o', hout, rfl, hloc, hx, hpx, hw, ?_, ?_, ho', ?_, by omega⟩
  · unfold surrogateErrors at ho'
    split at ho'
    · cases ho'; rfl
    · simp only [bind_eq_ok, pure_eq_ok] at ho'
      obtain ⟨e, -, rfl⟩ := ho'
      rfl
  · unfold surrogateErrors at ho'
    split at ho'
    · cases ho'; rfl
    · simp only [bind_eq_ok, pure_eq_ok] at ho'
      obtain ⟨e, -, rfl⟩ := ho'
      rfl
  · have := new_eq_ok hnew
    exact this

theorem forall₂_map_cell {G : Geometry K} (hG : Sound G) {inp : SampleSet K} {m : Nat}
    (hr : Ready inp m) (hk : inp.kind = .voronoi) {v : List (List K)}
    (hv : inp.glob.values = some v) (xs : Chunks (List K)) :
    AllNearest (G.dist inp.pNorm) v xs (xs.map fun c => c.map (inp.cell G)) := by
  unfold AllNearest
  rw [List.forall₂_map_right_iff]
  refine List.forall₂_same.mpr fun c _ => ?_
  rw [List.forall₂_map_right_iff]
  refine List.forall₂_same.mpr fun x _ => ?_
  have := SampleSet.cell_isCell hG hr x
  unfold IsCell at this
  rw [hk] at this
  exact this v hv

/-! ### C47 -/

/-- Initializing a surrogate with a consistent discretization whose arrays have not been distributed
succeeds and leaves the discretization as it is. -/
theorem C47_init {size n : Nat} {d : Disc K} {inp out : SampleSet K} (hi : d.input = some inp)
    (hic : Consistent inp n) (hil : inp.loc = {}) (ho : d.output = some out)
    (hoc : Consistent out n) (hol : out.loc = {}) : surrogateInit size d = .ok d := by
  have hl : ∀ s : SampleSet K, s.loc = {} → s.localToGlobal = s := by
    rintro ⟨_, _, ⟨⟩, loc, _, _, _, _, _, _, _⟩ h
    simp only at h
    subst h
    rfl
  simp only [surrogateInit, checkNums_ok hi ho hic hoc size, ok_bind, hi, ho, orErr_some, hl _ hil,
    hl _ hol]
  cases d
  simp only at hi ho
  subst hi ho
  rfl

/-- **C47.** An order 0 surrogate gives every new point the output, and if there are any the error
estimate, of a sample of the discretization that is nearest to the point. -/
theorem C47_nearest {G : Geometry K} (hG : Sound G) {size : Nat} (hsize : 0 < size) {d : Disc K}
    {new : SampleSet K} {S : Surrogate K} (h : generateForInputSet G size d new 0 = .ok S)
    {inp out : SampleSet K} {m : Nat} (hi : d.input = some inp) (hr : Ready inp m)
    (hk : inp.kind = .voronoi) {v y u : List (List K)} (hv : inp.glob.values = some v)
    (ho : d.output = some out) (hy : out.glob.values = some y)
    (hu : new.glob.values = some u) (hcur : LocalCurrent new u) :
    ∃ em o xs w ptr, S.surr.input = some em ∧ S.surr.output = some o ∧ em.loc.values = some xs ∧
      xs.flatten = u ∧ em.glob = new.glob ∧ o.loc.values = some w ∧ o.dim = out.dim ∧
      AllNearest (G.dist inp.pNorm) v xs ptr ∧ RowsAt y ptr w ∧
      (∀ ee, out.glob.errorEstimates = some ee →
        ∃ e, o.loc.errorEstimates = some e ∧ RowsAt ee ptr e) := by
  obtain ⟨out', em, xs, w, o, ho', -, hloc, hxs, hptr, hw, how, hod, her, hS, -⟩ :=
    generate_inv h hi hr
  rw [ho] at ho'
  cases ho'
  obtain ⟨hglob, c, hc, hflat⟩ := localized_values hsize (s := inheritDomain inp new) hu hcur hloc
  rw [hxs] at hc
  cases hc
  simp only [surrogateValues, hy, orErr_some, ok_bind, if_true] at hw
  refine ⟨em, o, xs, w, S.ptr, by rw [hS], by rw [hS], hxs, hflat, hglob, how, hod, ?_,
    takeRows_eq_ok hw, ?_⟩
  · rw [hptr]
    exact forall₂_map_cell hG hr hk hv xs
  · intro ee hee
    simp only [surrogateErrors, hee, bind_eq_ok, pure_eq_ok] at her
    obtain ⟨e, he, rfl⟩ := her
    exact ⟨e, rfl, takeRows_eq_ok he⟩

theorem forall₂_flatten {α β : Type} {R : α → β → Prop} {a : List (List α)} {b : List (List β)}
    (h : List.Forall₂ (List.Forall₂ R) a b) : List.Forall₂ R a.flatten b.flatten := by
  induction h with
  | nil => exact .nil
  | cons hab _ ih => exact List.rel_append hab ih

theorem forall₂_getElem? {α β : Type} {R : α → β → Prop} {a : List α} {b : List β}
    (h : List.Forall₂ R a b) {i : Nat} {x : α} (hx : a[i]? = some x) :
    ∃ y, b[i]? = some y ∧ R x y := by
  obtain ⟨hi, rfl⟩ := List.getElem?_eq_some_iff.1 hx
  have hi' : i < b.length := h.length_eq ▸ hi
  exact ⟨b[i], List.getElem?_eq_getElem hi', h.get hi hi'⟩

/-- **C47.** If the samples are distinct, a new point that is one of them gets that sample's
output. -/
theorem C47_data {G : Geometry K} (hG : Sound G) {size : Nat} (hsize : 0 < size) {d : Disc K}
    {new : SampleSet K} {S : Surrogate K} (h : generateForInputSet G size d new 0 = .ok S)
    {inp out : SampleSet K} {m : Nat} (hi : d.input = some inp) (hr : Ready inp m)
    (hk : inp.kind = .voronoi) (hsep : Separates (G.dist inp.pNorm))
    {v y u : List (List K)} (hv : inp.glob.values = some v) (hd : v.Nodup)
    (ho : d.output = some out) (hy : out.glob.values = some y)
    (hu : new.glob.values = some u) (hcur : LocalCurrent new u)
    {i k : Nat} {x q : List K} (hx : u[i]? = some x) (hxk : v[k]? = some x) (hq : y[k]? = some q) :
    ∃ o w, S.surr.output = some o ∧ o.loc.values = some w ∧ w.flatten[i]? = some q := by
  obtain ⟨em, o, xs, w, ptr, -, h2, -, h4, -, h5, -, h6, h7, -⟩ :=
    C47_nearest hG hsize h hi hr hk hv ho hy hu hcur
  refine ⟨o, w, h2, h5, ?_⟩
  rw [← h4] at hx
  obtain ⟨j, hj, c, hc, hmin⟩ := forall₂_getElem? (forall₂_flatten h6) hx
  obtain ⟨q', hq', hq''⟩ := forall₂_getElem? (forall₂_flatten h7) hj
  have h0 : G.dist inp.pNorm x c = 0 := by
    refine le_antisymm ?_ (hsep.1 _ _)
    rw [← (hsep.2 x x rfl).2 rfl]
    exact hmin x (List.mem_of_getElem? hxk)
  have hlen : ∀ z ∈ v, z.length = inp.dim := fun z hz => hr.consistent.2.2 v hv z hz
  have hcx : x = c := (hsep.2 x c ((hlen x (List.mem_of_getElem? hxk)).trans
    (hlen c (List.mem_of_getElem? hc)).symm)).1 h0
  subst hcx
  have hjk : j = k := by
    obtain ⟨hj1, hj2⟩ := List.getElem?_eq_some_iff.1 hc
    obtain ⟨hk1, hk2⟩ := List.getElem?_eq_some_iff.1 hxk
    exact (hd.getElem_inj_iff (hi := hj1) (hj := hk1)).1 (hj2.trans hk2.symm)
  subst hjk
  rw [hq', ← hq, ← hq'']

theorem takeRows_map {α β : Type} (a : List α) (dflt : α) (cell : β → Nat) (xs : Chunks β)
    (h : ∀ c ∈ xs, ∀ x ∈ c, cell x < a.length) :
    takeRows a (xs.map fun c => c.map cell) =
      .ok (xs.map fun c => c.map fun x => a.getD (cell x) dflt) := by
  unfold takeRows
  rw [mapM_ok _ (fun c => c.map fun j => a.getD j dflt)]
  · simp
  · intro c hc
    obtain ⟨c', hc', rfl⟩ := List.mem_map.1 hc
    rw [mapM_ok _ (fun j => a.getD j dflt)]
    intro j hj
    obtain ⟨x, hx, rfl⟩ := List.mem_map.1 hj
    have := h c' hc' x hx
    rw [getIdx_eq_ok, List.getD_eq_getElem?_getD, List.getElem?_eq_getElem this]
    rfl

theorem mem_arraySplit {α : Type} {size : Nat} (hsize : 0 < size) {u c : List α} {x : α}
    (hc : c ∈ arraySplit size u) (hx : x ∈ c) : x ∈ u := by
  rw [← flatten_arraySplit size u hsize]
  exact List.mem_flatten.2 ⟨c, hc, hx⟩

/-- The surrogate's output set: only local arrays. -/
def surrogateOutput (dim : Nat) (w : Chunks (List K)) (e : Option (Chunks (List K)))
    (li : Option (Chunks Nat) := none) : SampleSet K :=
  { dim := dim, loc := { values := some w, errorEstimates := e }, localIndex := li }

theorem checkNum_localOnly {size dim : Nat} {α : Type} (u : List α) (hsize : 0 < size)
    (f e : α → List K) (b : Bool) (li : Option (Chunks Nat) := none) :
    (surrogateOutput dim (arraySplit size (u.map f))
      (if b then some (arraySplit size (u.map e)) else none) li).checkNum size = .ok u.length := by
  have hns : ((arraySplit size u).map List.length).length = size := by simp [arraySplit]
  have hsum : ((arraySplit size u).map List.length).sum = u.length := by
    rw [← List.length_flatten, flatten_arraySplit _ _ hsize]
  have h := C12_check_num_local (s := surrogateOutput dim (arraySplit size (u.map f))
      (if b then some (arraySplit size (u.map e)) else none) li)
    (by constructor <;> rfl) ((arraySplit size u).map List.length) (by
      have hl : ∀ g : α → List K, (arraySplit size (u.map g)).map List.length =
          (arraySplit size u).map List.length := by
        intro g
        rw [arraySplit_map, List.map_map]
        refine List.map_congr_left fun c _ => by simp
      constructor <;> intro v hv <;> first | cases hv | skip
      · exact hl f
      · cases b
        · cases hv
        · cases hv
          exact hl e) (by
      intro hn
      have := hn.values
      simp [surrogateOutput] at this)
  rw [hns, hsum] at h
  exact h

/-- Generating a surrogate for points with global arrays only. -/
theorem generate_fresh {G : Geometry K} (hG : Sound G) {size : Nat} (hsize : 0 < size) {d : Disc K}
    {new inp out : SampleSet K} {m k order : Nat} (hord : order = 0 ∨ order = 1)
    (hi : d.input = some inp) (hr : Ready inp m)
    (ho : d.output = some out) (hoc : Consistent out m) {u : List (List K)}
    (hnew : Consistent new k) (hdim : new.dim = inp.dim)
    (hu : new.glob.values = some u) (hloc : new.loc = {}) {f : List K → List K}
    (hf : ∀ x ∈ u, (f x).length = out.dim)
    (hval : surrogateValues order inp out (arraySplit size u)
      (arraySplit size (u.map (inp.cell G))) = .ok (arraySplit size (u.map f))) :
    generateForInputSet G size d new order = .ok
      { disc := d
        ptr := arraySplit size (u.map (inp.cell G))
        surr := {
          input := some ((inheritDomain inp new).splitSet size k)
          output := some (surrogateOutput out.dim (arraySplit size (u.map f))
            (if out.glob.errorEstimates.isSome then some (arraySplit size
              (u.map fun x => (out.glob.errorEstimates.getD []).getD (inp.cell G x) [])) else none))
          outputProb := d.outputProb } } := by
  have hcn := SampleSet.checkNum_consistent (size := size) hnew
  have hul := hnew.1.values u hu
  have hnd : Consistent (inheritDomain inp new) k := hnew
  have hvx : ((inheritDomain inp new).splitSet size k).loc.values = some (arraySplit size u) := by
    simp [SampleSet.splitSet, Arrays.map₂, inheritDomain, hu]
  have hln : (inheritDomain inp new).loc.values = none := by simp [inheritDomain, hloc]
  have hloc' : (inheritDomain inp new).localized size =
      .ok ((inheritDomain inp new).splitSet size k) := by
    rw [SampleSet.localized_none size hln, SampleSet.globalToLocal_ok hnd]
  obtain ⟨s', hq, _⟩ := SampleSet.query_ready (G := G) (size := size) hr (arraySplit size u)
  rw [← arraySplit_map] at hq
  have hd : d.setEmulatedInput (inheritDomain inp new) =
      .ok { d with emInput := some (inheritDomain inp new) } := by
    simp only [Disc.setEmulatedInput, hi]
    rw [if_pos (by simp [inheritDomain, hdim])]
  have hset := setValuesLocal_ok ({ dim := out.dim } : SampleSet K) (arraySplit size (u.map f))
    (fun ch hch row hrow => by
      have := mem_arraySplit hsize hch hrow
      obtain ⟨x, hx, rfl⟩ := List.mem_map.1 this
      exact hf x hx)
  have herr : surrogateErrors out (arraySplit size (u.map (inp.cell G)))
      ({ dim := out.dim, loc := { values := some (arraySplit size (u.map f)) } } : SampleSet K) =
      .ok (surrogateOutput out.dim (arraySplit size (u.map f))
        (if out.glob.errorEstimates.isSome then some (arraySplit size
          (u.map fun x => (out.glob.errorEstimates.getD []).getD (inp.cell G x) [])) else none)) := by
    unfold surrogateErrors
    cases hee : out.glob.errorEstimates with
    | none => rfl
    | some ee =>
      have hel := hoc.1.errorEstimates ee hee
      simp only
      rw [arraySplit_map, takeRows_map ee [] (inp.cell G) (arraySplit size u) (fun c _ x _ => by
        rw [hel]; exact SampleSet.cell_lt hG hr x)]
      simp only [ok_bind, Option.isSome_some, if_true, Option.getD_some, ← arraySplit_map]
      rfl
  have hin : Consistent ((inheritDomain inp new).splitSet size k) k := hnew
  have hck := checkNum_localOnly (size := size) (dim := out.dim) u hsize f
    (fun x => (out.glob.errorEstimates.getD []).getD (inp.cell G x) [])
    out.glob.errorEstimates.isSome
  simp only [generateForInputSet, raiseIf_false (show ¬ (order ≠ 0 ∧ order ≠ 1) by omega), ok_bind,
    hcn, hi, ho, orErr_some, raiseIf_false (not_not.mpr hdim), hd, Disc.setIiPtr, hloc', hvx, hq,
    Bool.false_eq_true, if_false, pure_bind_ok, hval, hset]
  rw [herr]
  simp only [Disc.new, ok_bind, Option.isSome_some, if_true, Disc.checkNums, orErr_some, ok_bind, hck,
    SampleSet.checkNum_consistent hin]
  rw [if_neg (by simp [surrogateOutput])]
  rfl

/-- **C47.** The call succeeds for every number of processes on a discretization and a set of new
points with global arrays. -/
theorem C47_defined {G : Geometry K} (hG : Sound G) {size : Nat} (hsize : 0 < size) {d : Disc K}
    {new inp out : SampleSet K} {m k : Nat} (hi : d.input = some inp) (hr : Ready inp m)
    (ho : d.output = some out) (hoc : Consistent out m) {y u : List (List K)}
    (hy : out.glob.values = some y) (hnew : Consistent new k) (hdim : new.dim = inp.dim)
    (hu : new.glob.values = some u) (hloc : new.loc = {}) :
    ∃ S, generateForInputSet G size d new 0 = .ok S := by
  have hyl := hoc.1.values y hy
  refine ⟨_, generate_fresh hG hsize (Or.inl rfl) hi hr ho hoc hnew hdim hu hloc
    (f := fun x => y.getD (inp.cell G x) []) (fun x _ => ?_) ?_⟩
  · have hlt := SampleSet.cell_lt hG hr x
    rw [List.getD_eq_getElem?_getD, List.getElem?_eq_getElem (by omega)]
    have := hoc.2.2
    rw [hy] at this
    exact this _ rfl _ (List.getElem_mem _)
  · simp only [surrogateValues, hy, orErr_some, ok_bind, if_true]
    rw [arraySplit_map, takeRows_map y [] (inp.cell G) (arraySplit size u) (fun c _ x _ => by
        rw [hyl]; exact SampleSet.cell_lt hG hr x), ← arraySplit_map]

/-! ### C48 -/

/-- An order 1 surrogate needs Jacobians. -/
theorem surrogateValues_one {inp out : SampleSet K} {xs w : Chunks (List K)} {ptr : Chunks Nat}
    {v y : List (List K)} {jac : List (List (List K))} (hv : inp.glob.values = some v)
    (hj : inp.glob.jacobians = some jac) (hy : out.glob.values = some y)
    (h : surrogateValues 1 inp out xs ptr = .ok w) :
    ∃ qs jacs cs, RowsAt y ptr qs ∧ RowsAt jac ptr jacs ∧ RowsAt v ptr cs ∧
      w = linearValues qs jacs cs xs := by
  simp only [surrogateValues, hy, orErr_some, ok_bind, one_ne_zero, if_false, surrogateJacobians, hj,
    Option.isNone_some, Bool.false_eq_true, hv, bind_eq_ok, pure_eq_ok] at h
  obtain ⟨jacs, hjacs, cs, hcs, qs, hqs, rfl⟩ := h
  exact ⟨qs, jacs, cs, takeRows_eq_ok hqs, takeRows_eq_ok hjacs, takeRows_eq_ok hcs, rfl⟩

theorem forall₂_sameShape {α β : Type} {R : α → β → Prop} {a : List (List α)} {b : List (List β)}
    (h : List.Forall₂ (List.Forall₂ R) a b) : SameShape a b :=
  h.imp fun _ _ h => h.length_eq

theorem flatten_linearValues {qs cs xs : Chunks (List K)} {jacs : Chunks (List (List K))}
    (h1 : SameShape qs jacs) (h2 : SameShape cs xs) (h3 : SameShape qs cs) :
    (linearValues qs jacs cs xs).flatten =
      List.zipWith (fun (a : List K × List (List K)) (b : List K × List K) =>
        linearValue a.1 a.2 b.1 b.2) (List.zip qs.flatten jacs.flatten)
        (List.zip cs.flatten xs.flatten) := by
  unfold linearValues
  have e1 : List.zipWith List.zip qs jacs = List.zipWith (List.zipWith Prod.mk) qs jacs := rfl
  have e2 : List.zipWith List.zip cs xs = List.zipWith (List.zipWith Prod.mk) cs xs := rfl
  rw [e1, e2, flatten_zipWith_zipWith, flatten_zipWith_zipWith _ h1, flatten_zipWith_zipWith _ h2]
  · rfl
  · exact ((h1.zipWith_left _).symm.trans h3).trans (h2.zipWith_left _)

/-- What an order 1 surrogate gives to a new point `x`: for a nearest sample `c` with output `q` and
Jacobian `J` it is `q + J (c - x)`. -/
theorem C48_values {G : Geometry K} (hG : Sound G) {size : Nat} (hsize : 0 < size) {d : Disc K}
    {new : SampleSet K} {S : Surrogate K} (h : generateForInputSet G size d new 1 = .ok S)
    {inp out : SampleSet K} {m : Nat} (hi : d.input = some inp) (hr : Ready inp m)
    (hk : inp.kind = .voronoi) {v y u : List (List K)} {jac : List (List (List K))}
    (hv : inp.glob.values = some v) (hj : inp.glob.jacobians = some jac)
    (ho : d.output = some out) (hy : out.glob.values = some y)
    (hu : new.glob.values = some u) (hcur : LocalCurrent new u) {i : Nat} {x : List K}
    (hx : u[i]? = some x) :
    ∃ o w j c q J, S.surr.output = some o ∧ o.loc.values = some w ∧
      IsNearest (G.dist inp.pNorm) v x j ∧ v[j]? = some c ∧ y[j]? = some q ∧ jac[j]? = some J ∧
      w.flatten[i]? = some (List.zipWith (fun a row => a + dot row (List.zipWith (· - ·) c x)) q J) := by
  obtain ⟨out', em, xs, w, o, ho', -, hloc, hxs, hptr, hw, how, hod, her, hS, -⟩ :=
    generate_inv h hi hr
  rw [ho] at ho'
  cases ho'
  obtain ⟨hglob, c, hc, hflat⟩ := localized_values hsize (s := inheritDomain inp new) hu hcur hloc
  rw [hxs] at hc
  cases hc
  obtain ⟨qs, jacs, cs, h1, h2, h3, rfl⟩ := surrogateValues_one hv hj hy hw
  have hn : AllNearest (G.dist inp.pNorm) v xs S.ptr := by
    rw [hptr]; exact forall₂_map_cell hG hr hk hv xs
  have hx' := hx
  rw [← hflat] at hx'
  obtain ⟨j, hji, hnear⟩ := forall₂_getElem? (forall₂_flatten hn) hx'
  obtain ⟨q, hq, hyq⟩ := forall₂_getElem? (forall₂_flatten h1) hji
  obtain ⟨J, hJ, hjJ⟩ := forall₂_getElem? (forall₂_flatten h2) hji
  obtain ⟨cc, hcc, hvc⟩ := forall₂_getElem? (forall₂_flatten h3) hji
  refine ⟨o, _, j, cc, q, J, by rw [hS], how, hnear, hvc, hyq, hjJ, ?_⟩
  have s1 := forall₂_sameShape h1
  have s2 := forall₂_sameShape h2
  have s3 := forall₂_sameShape h3
  have s4 := forall₂_sameShape hn
  rw [flatten_linearValues (s1.symm.trans s2) (s3.symm.trans s4.symm) (s1.symm.trans s3),
    List.getElem?_zipWith]
  simp only [List.zip, List.getElem?_zipWith, hq, hJ, hcc, hx', Option.map₂_some_some,
    linearValue, jacApply, List.zipWith_map_right]
  rfl

theorem dot_sub (row a b : List K) (h : a.length = b.length) :
    dot row (List.zipWith (· - ·) a b) = dot row a - dot row b := by
  unfold dot
  induction row generalizing a b with
  | nil => simp
  | cons r row ih =>
    cases a with
    | nil => cases b with
      | nil => simp
      | cons _ _ => simp at h
    | cons x a => cases b with
      | nil => simp at h
      | cons y b =>
        have := ih a b (by simpa using h)
        simp only [List.zipWith_cons_cons, List.sum_cons, this]
        ring

/-- **C48 (partial).** For an affine model `Q` with its Jacobians the surrogate gives `x` the value
`2 Q(c) - Q(x)`, where `c` is a sample nearest to `x`: the difference `c - x` in the code has the
wrong sign. It is exact just at the points where `Q` is the same as at `c`, for example at the samples
themselves. Missing: exactness everywhere, which fails (`Ex.C48_negation`). -/
theorem C48_affine_partial [IsStrictOrderedRing K] {G : Geometry K} (hG : Sound G) {size : Nat}
    (hsize : 0 < size) {d : Disc K}
    {new : SampleSet K} {S : Surrogate K} (h : generateForInputSet G size d new 1 = .ok S)
    {inp out : SampleSet K} {m n : Nat} (hi : d.input = some inp) (hr : Ready inp m)
    (hk : inp.kind = .voronoi) {v u A : List (List K)} {b : List K}
    (hb : b.length = A.length) (hv : inp.glob.values = some v)
    (hj : inp.glob.jacobians = some (v.map fun _ => A)) (ho : d.output = some out)
    (hy : out.glob.values = some (v.map (affine A b))) (hvd : ∀ c ∈ v, c.length = n)
    (hu : new.glob.values = some u) (hcur : LocalCurrent new u) {i : Nat} {x : List K}
    (hx : u[i]? = some x) (hxd : x.length = n) :
    ∃ o w c q, S.surr.output = some o ∧ o.loc.values = some w ∧ w.flatten[i]? = some q ∧
      c ∈ v ∧ (∀ c' ∈ v, G.dist inp.pNorm x c ≤ G.dist inp.pNorm x c') ∧
      q = List.zipWith (fun qc qx => 2 * qc - qx) (affine A b c) (affine A b x) ∧
      (q = affine A b x ↔ ∀ row ∈ A, dot row x = dot row c) := by
  obtain ⟨o, w, j, c, q, J, h1, h2, ⟨c₀, hc₀, hmin⟩, hc, hq, hJ, hw⟩ :=
    C48_values hG hsize h hi hr hk hv hj ho hy hu hcur hx
  rw [hc] at hc₀
  cases hc₀
  rw [List.getElem?_map, hc] at hq hJ
  simp only [Option.map_some, Option.some.injEq] at hq hJ
  subst hq hJ
  have hcl := hvd c (List.mem_of_getElem? hc)
  refine ⟨o, w, c, _, h1, h2, hw, List.mem_of_getElem? hc, hmin, ?_, ?_⟩
  · unfold affine
    clear hw hj hy
    induction A generalizing b with
    | nil => simp
    | cons row A ih =>
      cases b with
      | nil => simp at hb
      | cons b0 b =>
        simp only [List.zipWith_cons_cons, ih (by simpa using hb), List.cons.injEq, and_true]
        rw [dot_sub _ _ _ (hcl.trans hxd.symm)]
        ring
  · unfold affine
    clear hw hj hy
    induction A generalizing b with
    | nil => simp
    | cons row A ih =>
      cases b with
      | nil => simp at hb
      | cons b0 b =>
        simp only [List.zipWith_cons_cons, List.cons.injEq, List.forall_mem_cons,
          ih (by simpa using hb)]
        rw [dot_sub _ _ _ (hcl.trans hxd.symm)]
        refine and_congr_left fun _ => ?_
        constructor <;> intro hh <;> linarith

/-- Order 1 surrogates can be generated for every number of processes when the Jacobians are there. -/
theorem C48_defined {G : Geometry K} (hG : Sound G) {size : Nat} (hsize : 0 < size) {d : Disc K}
    {new inp out : SampleSet K} {m k : Nat} (hi : d.input = some inp) (hr : Ready inp m)
    (ho : d.output = some out) (hoc : Consistent out m) {v y u : List (List K)}
    {jac : List (List (List K))} (hv : inp.glob.values = some v)
    (hj : inp.glob.jacobians = some jac) (hjd : ∀ J ∈ jac, J.length = out.dim)
    (hy : out.glob.values = some y) (hnew : Consistent new k) (hdim : new.dim = inp.dim)
    (hu : new.glob.values = some u) (hloc : new.loc = {}) :
    ∃ S, generateForInputSet G size d new 1 = .ok S := by
  have hyl := hoc.1.values y hy
  have hvl := hr.consistent.1.values v hv
  have hjl := hr.consistent.1.jacobians jac hj
  refine ⟨_, generate_fresh hG hsize (Or.inr rfl) hi hr ho hoc hnew hdim hu hloc
    (f := fun x => linearValue (y.getD (inp.cell G x) []) (jac.getD (inp.cell G x) [])
      (v.getD (inp.cell G x) []) x) (fun x _ => ?_) ?_⟩
  · have hlt := SampleSet.cell_lt hG hr x
    have h1 : (y.getD (inp.cell G x) []).length = out.dim := by
      rw [List.getD_eq_getElem?_getD, List.getElem?_eq_getElem (by omega)]
      have := hoc.2.2
      rw [hy] at this
      exact this _ rfl _ (List.getElem_mem _)
    have h2 : (jac.getD (inp.cell G x) []).length = out.dim := by
      rw [List.getD_eq_getElem?_getD, List.getElem?_eq_getElem (by omega)]
      exact hjd _ (List.getElem_mem _)
    show (linearValue _ _ _ _).length = _
    rw [linearValue, List.length_zipWith, jacApply, List.length_map, h1, h2, min_self]
  · have hlt : ∀ a : Nat, a = m → ∀ c ∈ arraySplit size u, ∀ x ∈ c, inp.cell G x < a :=
      fun a ha _ _ x _ => ha ▸ SampleSet.cell_lt hG hr x
    simp only [surrogateValues, hy, orErr_some, ok_bind, one_ne_zero, if_false, surrogateJacobians,
      hj, Option.isNone_some, Bool.false_eq_true, hv]
    rw [arraySplit_map, takeRows_map jac [] (inp.cell G) (arraySplit size u) (hlt _ hjl)]
    simp only [ok_bind]
    rw [takeRows_map v [] (inp.cell G) (arraySplit size u) (hlt _ hvl)]
    simp only [ok_bind]
    rw [takeRows_map y [] (inp.cell G) (arraySplit size u) (hlt _ hyl)]
    simp only [ok_bind]
    rw [arraySplit_map]
    show Except.ok _ = _
    congr 1
    unfold linearValues
    generalize arraySplit size u = us
    induction us with
    | nil => rfl
    | cons c us ih =>
      simp only [List.map_cons, List.zipWith_cons_cons, ih]
      congr 1
      induction c with
      | nil => rfl
      | cons x c ih' => simpa [List.zip] using ih'

end BET

/-! ### Concrete cases -/

namespace BET.Ex

open BET BET.Spec

/-- Two samples of `Q(x) = x` with Jacobian 1 and error estimates. -/
def surDisc : Disc ℚ where
  input := some { dim := 1, glob := { values := some [[0], [2]], jacobians := some [[[1]], [[1]]] } }
  output := some { dim := 1, glob := { values := some [[0], [2]], errorEstimates := some [[1], [3]] } }

def surNew : SampleSet ℚ := { dim := 1, glob := { values := some [[1/2], [2], [9/5]] } }

theorem ready_surDisc : ∃ inp, surDisc.input = some inp ∧ Ready inp 2 :=
  ⟨_, rfl, consistent_of _ _ rfl rfl, by norm_num, rfl, Or.inl rfl, nofun, nofun⟩

theorem dist1_nonneg (x y : List ℚ) : 0 ≤ dist1 x y := by
  unfold dist1
  refine List.sum_nonneg fun a ha => ?_
  rw [List.mem_iff_getElem] at ha
  obtain ⟨i, hi, rfl⟩ := ha
  rw [List.getElem_zipWith]
  exact abs_nonneg _

theorem separates_dist1 : Separates dist1 := by
  refine ⟨dist1_nonneg, fun x y => ?_⟩
  induction x generalizing y with
  | nil =>
    intro h
    cases y with
    | nil => simp [dist1]
    | cons _ _ => simp at h
  | cons a x ih =>
    intro h
    cases y with
    | nil => simp at h
    | cons b y =>
      have h1 := ih y (by simpa using h)
      have h2 : dist1 (a :: x) (b :: y) = |a - b| + dist1 x y := by simp [dist1]
      rw [h2, List.cons.injEq, ← h1]
      constructor
      · intro h0
        have := abs_nonneg (a - b)
        have := dist1_nonneg x y
        have h3 : |a - b| = 0 := by linarith
        exact ⟨by rwa [abs_eq_zero, sub_eq_zero] at h3, by linarith⟩
      · rintro ⟨rfl, h0⟩
        simp [h0]

/-- The hypotheses of `C47_data` are met by the second new point. -/
example : ∃ S o w, generateForInputSet G 2 surDisc surNew 0 = .ok S ∧
    S.surr.output = some o ∧ o.loc.values = some w ∧ w.flatten[1]? = some [2] := by
  obtain ⟨inp, hi, hr⟩ := ready_surDisc
  cases hi
  obtain ⟨S, h⟩ : ∃ S, generateForInputSet G 2 surDisc surNew 0 = .ok S :=
    C47_defined sound_G (by norm_num) rfl hr rfl (consistent_of _ _ rfl rfl) rfl
      (consistent_of surNew 3 rfl rfl) rfl rfl rfl
  obtain ⟨o, w, h1, h2, h3⟩ := C47_data sound_G (by norm_num) h rfl hr rfl separates_dist1 rfl
    (by decide) rfl rfl (u := [[1/2], [2], [9/5]]) rfl (Or.inl rfl) (i := 1) (k := 1) rfl rfl rfl
  exact ⟨S, o, w, h, h1, h2, h3⟩

/-- Initializing does not change the discretization. -/
example : surrogateInit 2 surDisc = .ok surDisc :=
  C47_init rfl (consistent_of _ _ rfl rfl) rfl rfl (consistent_of _ _ rfl rfl) rfl

/-- The values of order 0 on two processes. -/
example :
    ((generateForInputSet G 2 surDisc surNew 0).toOption.bind fun S => S.surr.output.bind fun o =>
      o.loc.values) = some [[[0], [2]], [[2]]] ∧
    ((generateForInputSet G 2 surDisc surNew 0).toOption.bind fun S => S.surr.output.bind fun o =>
      o.loc.errorEstimates) = some [[[1], [3]], [[3]]] := by
  decide +kernel

/-- The hypotheses of `C47_defined` and `C48_defined` are met. -/
example : (∃ S, generateForInputSet G 3 surDisc surNew 0 = .ok S) ∧
    ∃ S, generateForInputSet G 3 surDisc surNew 1 = .ok S := by
  obtain ⟨inp, hi, hr⟩ := ready_surDisc
  cases hi
  exact ⟨C47_defined sound_G (by norm_num) rfl hr rfl (consistent_of _ _ rfl rfl) rfl
      (consistent_of surNew 3 rfl rfl) rfl rfl rfl,
    C48_defined sound_G (by norm_num) rfl hr rfl (consistent_of _ _ rfl rfl) rfl rfl
      (by decide) rfl (consistent_of surNew 3 rfl rfl) rfl rfl rfl⟩

/-- The model of `surDisc` is affine. -/
example : [[0], [2]].map (affine [[(1 : ℚ)]] [0]) = [[0], [2]] := by decide +kernel

/-- **C48 fails in general**: for `Q(x) = x` the surrogate's value at `1/2` is `-1/2`. -/
theorem C48_negation :
    ((generateForInputSet G 1 surDisc surNew 1).toOption.bind fun S => S.surr.output.bind fun o =>
      o.loc.values) = some [[[-1/2], [2], [11/5]]] ∧
    affine [[(1 : ℚ)]] [0] [1/2] = [1/2] := by
  decide +kernel

/-- Without Jacobians there is no surrogate of order 1. -/
example : errOf (generateForInputSet G 1 { surDisc with
    input := some { dim := 1, glob := { values := some [[0], [2]] } } } surNew 1) =
    some .wrongArgumentType := by
  decide +kernel

end BET.Ex
