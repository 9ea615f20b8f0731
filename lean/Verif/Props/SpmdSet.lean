import Verif.Model.SpmdSet
import Verif.Props.SpmdChoose

/-!
# Whole calls on several processes (C119)
-/

set_option autoImplicit false
set_option linter.unusedSectionVars false
set_option linter.unusedSimpArgs false

namespace BET

/-- A predicate for every array. -/
def Arrays.All {F : Type → Type} {K : Type} (p : ∀ {α : Type}, Option (F α) → Prop)
    (a : Arrays F K) : Prop :=
  p a.values ∧ p a.volumes ∧ p a.probabilities ∧ p a.densities ∧ p a.jacobians ∧
  p a.errorEstimates ∧ p a.right ∧ p a.left ∧ p a.width ∧ p a.kdtreeValues ∧ p a.radii ∧
  p a.normalizedRadii ∧ p a.region ∧ p a.errorId

namespace Spec

/-- A local array, where there is one, has a part for each of the `n` processes. -/
def Spread {α : Type} (n : Nat) (a : Option (Chunks α)) : Prop := ∀ c, a = some c → c.length = n

/-- Every local array of the set has a part for each of the `n` processes. -/
def SpreadSet {K : Type} (n : Nat) (s : SampleSet K) : Prop :=
  s.loc.All (Spread n) ∧ Spread n s.localIndex

/-- So has every local array of the sets and every local pointer of the discretization. -/
structure SpreadDisc {K : Type} (n : Nat) (d : Disc K) : Prop where
  input : ∀ s, d.input = some s → SpreadSet n s
  output : ∀ s, d.output = some s → SpreadSet n s
  outputProb : ∀ s, d.outputProb = some s → SpreadSet n s
  emInput : ∀ s, d.emInput = some s → SpreadSet n s
  emOutput : ∀ s, d.emOutput = some s → SpreadSet n s
  io : Spread n d.ioPtrLocal
  ii : Spread n d.iiPtrLocal
  oo : Spread n d.ooPtrLocal

end Spec

open Spec

variable {n : Nat}

/-! ### Programs one after the other -/

section
variable {M R S : Type}

/-- The programs fit together, with some number of collectives. -/
def Fits (ps : Fin n → Proc M R) (rs : Fin n → Except Err R) : Prop := ∃ d, FitTogether d ps rs

theorem Fits.ret (r : Fin n → R) : Fits (fun i => (pure (r i) : Proc M R)) (fun i => .ok (r i)) :=
  ⟨0, fit_ret r⟩

theorem Fits.bind {ps : Fin n → Proc M R} {r : Fin n → R} (h : Fits ps (fun i => .ok (r i)))
    {f : Fin n → R → Proc M S} {rs : Fin n → Except Err S} (hf : Fits (fun i => f i (r i)) rs) :
    Fits (fun i => ps i >>= f i) rs := by
  obtain ⟨d, h⟩ := h
  obtain ⟨e, hf⟩ := hf
  exact ⟨e + d, fit_bind' h hf⟩

theorem Fits.except {x : Fin n → Except Err R} {r : Fin n → R} (h : ∀ i, x i = .ok (r i))
    {f : Fin n → R → Proc M S} {rs : Fin n → Except Err S} (hf : Fits (fun i => f i (r i)) rs) :
    Fits (fun i => Proc.ofExcept (x i) >>= f i) rs := by
  obtain ⟨e, hf⟩ := hf
  exact ⟨e, fit_bind_except h hf⟩

theorem Fits.runs {ps : Fin n → Proc M R} {rs : Fin n → Except Err R} (hn : 0 < n)
    (h : Fits ps rs) : RunsTo ps rs := by
  obtain ⟨d, h⟩ := h
  exact runsTo_of_fit hn h

end

/-! ### Local arrays -/

section
variable {α : Type}

theorem spread_ofFn {a : Option (Chunks α)} (h : Spread n a) {c : Chunks α} (hc : a = some c) :
    c = List.ofFn fun r : Fin n => c.getD r [] := by
  have hl := h c hc
  apply List.ext_getElem
  · simp [hl]
  · intro i h1 h2
    simp [List.getElem?_eq_getElem h1]

theorem spread_split {g : Option (List α)} {l : Option (Chunks α)} (h : Spread n l) :
    Spread n (SampleSet.splitArr n g l) := by
  cases g with
  | none => exact h
  | some x =>
    rintro c ⟨⟩
    exact length_arraySplit n x

theorem oneOf_split (r : Nat) (g : Option (List α)) (l : Option (Chunks α)) :
    oneOf r (SampleSet.splitArr n g l) = splitOne r n g (oneOf r l) := by
  cases g <;> rfl

theorem spread_some (f : Fin n → List α) : Spread n (some (List.ofFn f)) := by
  rintro c ⟨⟩
  simp

theorem oneOf_ofFn (f : Fin n → List α) (r : Fin n) : oneOf r (some (List.ofFn f)) = some [f r] := by
  simp [oneOf]

end

section
variable {K : Type} [Field K] [LinearOrder K]

theorem view_checkNumLocal (s : SampleSet K) (r : Nat) :
    (s.view r).checkNumLocal 0 = s.checkNumLocal r := by
  unfold SampleSet.checkNumLocal
  have : (s.view r).loc.toList (fun c => (c.getD 0 []).length) =
      s.loc.toList (fun c => (c.getD r []).length) := by
    simp [SampleSet.view, Arrays.toList, Arrays.map, oneOf, Function.comp_def]
  rw [this]
  rfl

theorem checkNumLocals_inv {s : SampleSet K} {l ns : List Nat}
    (h : s.checkNumLocals l = .ok ns) :
    (∀ r ∈ l, ∃ m, s.checkNumLocal r = .ok m) ∧
      ns = l.map fun r => ((s.checkNumLocal r).toOption.bind id).getD 0 := by
  induction l generalizing ns with
  | nil =>
    rw [SampleSet.checkNumLocals, pure_eq_ok] at h
    subst h
    simp
  | cons r l ih =>
    rw [SampleSet.checkNumLocals, bind_eq_ok] at h
    obtain ⟨m, hm, h⟩ := h
    rw [bind_eq_ok] at h
    obtain ⟨ms, hms, h⟩ := h
    rw [pure_eq_ok] at h
    subst h
    obtain ⟨h1, h2⟩ := ih hms
    refine ⟨?_, ?_⟩
    · intro r' hr'
      rcases List.mem_cons.1 hr' with rfl | hr'
      · exact ⟨m, hm⟩
      · exact h1 r' hr'
    · rw [h2]
      simp [hm, Except.toOption]

theorem fits_checkNum {s : SampleSet K} {num : Nat} (h : s.checkNum n = .ok num) :
    Fits (fun r : Fin n => (s.view r).procCheckNum) (fun _ => .ok num) := by
  rw [SampleSet.checkNum, bind_eq_ok] at h
  obtain ⟨m, hm, h⟩ := h
  unfold SampleSet.procCheckNum
  refine Fits.except (r := fun _ => m) (fun _ => hm) ?_
  by_cases hc : SampleSet.colsOk s.dim s.glob.values = true
  · rw [if_pos hc] at h
    have hc' : ∀ r : Fin n, SampleSet.colsOk (s.view r).dim (s.view r).glob.values = true :=
      fun _ => hc
    simp only [hc', if_true]
    cases m with
    | some k =>
      rw [pure_eq_ok] at h
      subst h
      exact Fits.ret _
    | none =>
      simp only [bind_eq_ok, pure_eq_ok] at h
      obtain ⟨ns, hns, h⟩ := h
      subst h
      obtain ⟨h1, rfl⟩ := checkNumLocals_inv hns
      refine Fits.except (r := fun r : Fin n => (s.checkNumLocal r).toOption.bind id) ?_ ?_
      · intro r
        rw [view_checkNumLocal]
        obtain ⟨m, hm⟩ := h1 r (by simp)
        rw [hm]
        rfl
      · have := fit_reduceCnt (K := K) fun r : Fin n =>
          ((s.checkNumLocal r).toOption.bind id).getD 0
        refine ⟨1, ?_⟩
        rw [allreduceSum_nat]
        have e : (List.range n).map (fun r => ((s.checkNumLocal r).toOption.bind id).getD 0) =
            List.ofFn fun r : Fin n => ((s.checkNumLocal r).toOption.bind id).getD 0 := by
          apply List.ext_getElem <;> simp
        rw [e]
        exact this
  · rw [if_neg hc] at h
    cases h

theorem view_globalToLocal {s : SampleSet K} {num : Nat} (r : Fin n) :
    SampleSet.view r { s with
      localIndex := some (arraySplit n (List.range num))
      loc := Arrays.map₂ (SampleSet.splitArr n) s.glob s.loc } =
    { s.view r with
      localIndex := some [(arraySplit n (List.range num)).getD r []]
      loc := Arrays.map₂ (splitOne r n) (s.view r).glob (s.view r).loc } := by
  simp [SampleSet.view, Arrays.map, Arrays.map₂, oneOf_split]
  rfl

theorem fits_barrier : Fits (fun _ : Fin n => (barrierM : Proc (Msg K) Unit)) (fun _ => .ok ()) :=
  ⟨1, .coll .barrier (fun _ => .none) _ (fun _ => rfl) (.done fun _ => rfl)⟩

theorem spread_globalToLocal {s s' : SampleSet K} (hs : SpreadSet n s)
    (h : s.globalToLocal n = .ok s') : SpreadSet n s' := by
  simp only [SampleSet.globalToLocal, bind_eq_ok, pure_eq_ok] at h
  obtain ⟨num, _, rfl⟩ := h
  obtain ⟨⟨h1, h2, h3, h4, h5, h6, h7, h8, h9, h10, h11, h12, h13, h14⟩, -⟩ := hs
  refine ⟨⟨spread_split h1, spread_split h2, spread_split h3, spread_split h4, spread_split h5,
    spread_split h6, spread_split h7, spread_split h8, spread_split h9, spread_split h10,
    spread_split h11, spread_split h12, spread_split h13, spread_split h14⟩, ?_⟩
  rintro c ⟨⟩
  exact length_arraySplit _ _

theorem fits_globalToLocal {s s' : SampleSet K} (h : s.globalToLocal n = .ok s') :
    Fits (fun r : Fin n => (s.view r).procGlobalToLocal r n) (fun r => .ok (s'.view r)) := by
  simp only [SampleSet.globalToLocal, bind_eq_ok, pure_eq_ok] at h
  obtain ⟨num, hnum, rfl⟩ := h
  unfold SampleSet.procGlobalToLocal
  refine Fits.bind (r := fun _ => num) (fits_checkNum hnum) ?_
  refine Fits.bind (r := fun _ => ()) fits_barrier ?_
  simp only [view_globalToLocal]
  exact Fits.ret _

theorem spread_localized {s s' : SampleSet K} (hs : SpreadSet n s) (h : s.localized n = .ok s') :
    SpreadSet n s' := by
  unfold SampleSet.localized at h
  split at h
  · exact spread_globalToLocal hs h
  · cases h; exact hs

theorem view_values (s : SampleSet K) (r : Nat) : (s.view r).loc.values = oneOf r s.loc.values := rfl

theorem fits_localized {s s' : SampleSet K} (h : s.localized n = .ok s') :
    Fits (fun r : Fin n => (s.view r).procLocalized r n) (fun r => .ok (s'.view r)) := by
  unfold SampleSet.localized at h
  unfold SampleSet.procLocalized
  have e : ∀ r : Nat, (s.view r).loc.values.isNone = s.loc.values.isNone := by
    intro r
    rw [view_values]
    cases s.loc.values <;> rfl
  simp only [e]
  split at h
  case isTrue hv =>
    simp only [hv, if_true]
    exact fits_globalToLocal h
  case isFalse hv =>
    cases h
    simp only [hv]
    exact Fits.ret _

/-! ### Gathering -/

theorem fits_gatherList {α : Type} [Payload K α] (x : Fin n → List α) :
    Fits (fun r => (gatherList (x r) : Proc (Msg K) (List α))) (fun _ => .ok (List.ofFn x).flatten) := by
  refine ⟨1, .coll .allgather (fun r => Payload.pack (x r)) _ (fun _ => rfl) (.done fun _ => ?_)⟩
  simp [Proc.result, List.map_ofFn, Function.comp_def, Payload.law]

theorem fits_gatherField {α : Type} [Payload K α] {l : Option (Chunks α)} (hl : Spread n l)
    (g : Option (List α)) :
    Fits (fun r : Fin n => (gatherField (oneOf r l) g : Proc (Msg K) (Option (List α))))
      (fun _ => .ok (SampleSet.gatherArr l g)) := by
  unfold gatherField
  cases l with
  | none => exact Fits.ret _
  | some c =>
    have hc := spread_ofFn hl rfl
    refine Fits.bind (r := fun _ => c.flatten) ?_ (Fits.ret fun _ => some c.flatten)
    have := fits_gatherList (K := K) fun r : Fin n => c.getD r []
    rw [← hc] at this
    simpa using this

theorem fits_localToGlobal {s : SampleSet K} (hs : SpreadSet n s) :
    Fits (fun r : Fin n => (s.view r).procLocalToGlobal)
      (fun r => .ok (s.localToGlobal.view r)) := by
  obtain ⟨⟨h1, h2, h3, h4, h5, h6, h7, h8, h9, h10, h11, h12, h13, h14⟩, -⟩ := hs
  unfold SampleSet.procLocalToGlobal
  simp only [SampleSet.view, Arrays.map]
  refine Fits.bind (fits_gatherField (K := K) h1 _) ?_
  refine Fits.bind (fits_gatherField (K := K) h2 _) ?_
  refine Fits.bind (fits_gatherField (K := K) h3 _) ?_
  refine Fits.bind (fits_gatherField (K := K) h4 _) ?_
  refine Fits.bind (fits_gatherField (K := K) h5 _) ?_
  refine Fits.bind (fits_gatherField (K := K) h6 _) ?_
  refine Fits.bind (fits_gatherField (K := K) h7 _) ?_
  refine Fits.bind (fits_gatherField (K := K) h8 _) ?_
  refine Fits.bind (fits_gatherField (K := K) h9 _) ?_
  refine Fits.bind (fits_gatherField (K := K) h10 _) ?_
  refine Fits.bind (fits_gatherField (K := K) h11 _) ?_
  refine Fits.bind (fits_gatherField (K := K) h12 _) ?_
  refine Fits.bind (fits_gatherField (K := K) h13 _) ?_
  refine Fits.bind (fits_gatherField (K := K) h14 _) ?_
  exact Fits.ret _

/-! ### Queries -/

theorem regionQuery_row (G : Geometry K) (s : SampleSet K) (k : Nat) (x : List K) :
    s.regionQuery G n k x = s.checkNum n >>= fun num => s.regionRow G num k x := rfl

theorem query_spread {G : Geometry K} {s s' : SampleSet K} {x : Fin n → List (List K)}
    {ptr : Chunks Nat} (h : s.query G n (List.ofFn x) = .ok (s', ptr)) :
    s'.loc = s.loc ∧ s'.localIndex = s.localIndex ∧
    ∃ p, ptr = List.ofFn p ∧
    Fits (fun r => (s.view r).procQuery G (x r)) (fun r => .ok (s'.view r, p r)) := by
  unfold SampleSet.query at h
  unfold SampleSet.procQuery
  cases hk : s.kind with
  | voronoi =>
    have hk' : ∀ r : Nat, (s.view r).kind = .voronoi := fun _ => hk
    simp only [hk, bind_eq_ok, pure_eq_ok, Prod.mk.injEq] at h
    simp only [hk']
    obtain ⟨s1, h1, pts, h2, rfl, rfl⟩ := h
    rw [List.map_ofFn]
    unfold SampleSet.ensureTree at h1
    unfold SampleSet.procEnsureTree
    cases ht : s.kdtree with
    | none =>
      have ht' : ∀ r : Nat, (s.view r).kdtree = none := fun _ => ht
      simp only [ht] at h1
      simp only [ht']
      simp only [SampleSet.setKdtree, bind_eq_ok, pure_eq_ok] at h1
      obtain ⟨v, hv, rfl⟩ := h1
      refine ⟨rfl, rfl, _, rfl, ?_⟩
      refine Fits.except (r := fun r => SampleSet.view r { s with
        kdtree := some v, glob := { s.glob with kdtreeValues := some v } }) ?_ ?_
      · intro r
        simp only [SampleSet.setKdtree]
        have : orErr Err.valueError (s.view r).glob.values = .ok v := hv
        rw [this]
        rfl
      · refine Fits.except (r := fun _ => pts) (fun r => h2) ?_
        exact Fits.ret _
    | some t =>
      have ht' : ∀ r : Nat, (s.view r).kdtree = some t := fun _ => ht
      simp only [ht, bind_eq_ok, pure_eq_ok] at h1
      simp only [ht']
      obtain ⟨num, hnum, rfl⟩ := h1
      refine ⟨rfl, rfl, _, rfl, ?_⟩
      refine Fits.bind (r := fun r => s.view r) ?_ ?_
      · exact Fits.bind (fits_checkNum hnum) (Fits.ret _)
      · refine Fits.except (r := fun _ => pts) (fun r => h2) ?_
        exact Fits.ret _
  | rectangle =>
    have hk' : ∀ r : Nat, (s.view r).kind = .rectangle := fun _ => hk
    simp only [hk, bind_eq_ok, pure_eq_ok, Prod.mk.injEq] at h
    simp only [hk']
    obtain ⟨num, hnum, ptr', h1, rfl, rfl⟩ := h
    obtain ⟨p, rfl, hp⟩ := mapM_ofFn_ok h1
    refine ⟨rfl, rfl, p, rfl, ?_⟩
    refine Fits.bind (fits_checkNum hnum) ?_
    refine Fits.except (r := p) ?_ (Fits.ret _)
    intro r
    rw [← hp r]
    congr 1
    funext y
    rw [regionQuery_row, hnum]
    rfl
  | ball =>
    have hk' : ∀ r : Nat, (s.view r).kind = .ball := fun _ => hk
    simp only [hk, bind_eq_ok, pure_eq_ok, Prod.mk.injEq] at h
    simp only [hk']
    obtain ⟨num, hnum, ptr', h1, rfl, rfl⟩ := h
    obtain ⟨p, rfl, hp⟩ := mapM_ofFn_ok h1
    refine ⟨rfl, rfl, p, rfl, ?_⟩
    refine Fits.bind (fits_checkNum hnum) ?_
    refine Fits.except (r := p) ?_ (Fits.ret _)
    intro r
    rw [← hp r]
    congr 1
    funext y
    rw [regionQuery_row, hnum]
    rfl

theorem spread_query {G : Geometry K} {s s' : SampleSet K} {x : Fin n → List (List K)}
    {ptr : Chunks Nat} (h : s.query G n (List.ofFn x) = .ok (s', ptr)) (hs : SpreadSet n s) :
    SpreadSet n s' := by
  obtain ⟨h1, h2, -⟩ := query_spread h
  unfold SpreadSet
  rw [h1, h2]
  exact hs

/-- The local values of a set, where there are any, are those that the processes have. -/
theorem localValues {s : SampleSet K} (hs : SpreadSet n s) {e : Err} {x : Chunks (List K)}
    (h : orErr e s.loc.values = .ok x) :
    ∃ f : Fin n → List (List K), x = List.ofFn f ∧
      ∀ r : Fin n, orErr e (s.view r).loc.values = .ok [f r] := by
  rw [orErr_eq_ok] at h
  refine ⟨_, spread_ofFn hs.1.1 h, fun r => ?_⟩
  rw [view_values, h]
  rfl

/-! ### Volumes -/

theorem fits_estimateVolume {G : Geometry K} {s s' : SampleSet K} {k : Nat}
    {mc : Fin n → List (List K)} (hs : SpreadSet n s)
    (h : s.estimateVolume G n k (List.ofFn mc) = .ok s') :
    SpreadSet n s' ∧ Fits (fun r : Fin n => (s.view r).procEstimateVolume G r n k (mc r))
      (fun r => .ok (s'.view r)) := by
  simp only [SampleSet.estimateVolume, bind_eq_ok] at h
  obtain ⟨num, hnum, dom, hdom, ⟨s1, ptr⟩, hq, _, hz, h⟩ := h
  have hz' := raiseIf_eq_ok.mp hz
  have hs1 := spread_query hq hs
  obtain ⟨-, -, p, rfl, hf⟩ := query_spread hq
  dsimp only at h
  refine ⟨spread_globalToLocal ?_ h, ?_⟩
  · exact hs1
  unfold SampleSet.procEstimateVolume
  refine Fits.bind (fits_checkNum hnum) ?_
  refine Fits.except (r := fun _ => dom) (fun _ => hdom) ?_
  refine Fits.bind hf ?_
  refine Fits.bind ⟨1, fit_volumes (by simpa using hz')⟩ ?_
  exact fits_globalToLocal h

theorem fits_estimateVolumeEmulated {G : Geometry K} {s em s' em' : SampleSet K}
    (hs : SpreadSet n s) (hem : SpreadSet n em)
    (h : s.estimateVolumeEmulated G n em = .ok (s', em')) :
    SpreadSet n s' ∧ SpreadSet n em' ∧
      Fits (fun r : Fin n => (s.view r).procEstimateVolumeEmulated G r n (em.view r))
      (fun r => .ok (s'.view r, em'.view r)) := by
  simp only [SampleSet.estimateVolumeEmulated, bind_eq_ok, pure_eq_ok, Prod.mk.injEq] at h
  obtain ⟨num, hnum, em1, hem1, x, hx, ⟨s1, ptr⟩, hq, _, hz, s2, h, rfl, rfl⟩ := h
  have hsem := spread_localized hem hem1
  obtain ⟨f, rfl, hf⟩ := localValues hsem hx
  have hz' := raiseIf_eq_ok.mp hz
  have hs1 := spread_query hq hs
  obtain ⟨-, -, p, rfl, hfq⟩ := query_spread hq
  dsimp only at h
  refine ⟨spread_globalToLocal ?_ h, hsem, ?_⟩
  · exact hs1
  unfold SampleSet.procEstimateVolumeEmulated
  refine Fits.bind (fits_checkNum hnum) ?_
  refine Fits.bind (fits_localized hem1) ?_
  refine Fits.except hf ?_
  simp only [List.flatten_cons, List.flatten_nil, List.append_nil]
  refine Fits.bind hfq ?_
  rw [List.map_ofFn] at hz' h
  refine Fits.bind ⟨2, fit_volumesEm (m := fun r => (f r).length) hz'⟩ ?_
  exact Fits.bind (fits_globalToLocal h) (Fits.ret _)

/-! ### Discretizations -/

theorem orErr_view {o : Option (SampleSet K)} {e : Err} {s : SampleSet K}
    (h : orErr e o = .ok s) (r : Nat) : orErr e (o.map (SampleSet.view r)) = .ok (s.view r) := by
  rw [orErr_eq_ok] at h
  rw [h]
  rfl

theorem fits_checkNums {d : Disc K} {num : Nat} (h : d.checkNums n = .ok num) :
    Fits (fun r : Fin n => (d.view r).procCheckNums) (fun _ => .ok num) := by
  simp only [Disc.checkNums, bind_eq_ok] at h
  obtain ⟨out, hout, m, hm, inp, hinp, k, hk, h⟩ := h
  unfold Disc.procCheckNums
  refine Fits.except (r := fun r => out.view r) (fun r => orErr_view hout r) ?_
  refine Fits.bind (fits_checkNum hm) ?_
  refine Fits.except (r := fun r => inp.view r) (fun r => orErr_view hinp r) ?_
  refine Fits.bind (fits_checkNum hk) ?_
  have e : ∀ r : Nat, (decide (m ≠ k) && (out.view r).glob.values.isSome &&
      (inp.view r).glob.values.isSome) =
      (decide (m ≠ k) && out.glob.values.isSome && inp.glob.values.isSome) := fun _ => rfl
  simp only [e]
  split at h
  · cases h
  · case isFalse hc =>
    rw [pure_eq_ok] at h
    subst h
    simp only [hc]
    exact Fits.ret _

theorem fits_globalPtr {p : Fin n → List Nat} (g : Bool) (old : Option (List Nat)) :
    Fits (fun r => (Disc.procGlobalPtr g (p r) old : Proc (Msg K) (Option (List Nat))))
      (fun _ => .ok (if g then some (getGlobalValues (List.ofFn p)) else old)) := by
  unfold Disc.procGlobalPtr
  cases g with
  | false => exact Fits.ret _
  | true =>
    simp only [if_true]
    exact Fits.bind (fits_gatherList p) (Fits.ret _)

theorem fits_setIoPtr {G : Geometry K} {d d' : Disc K} {g : Bool} (hd : SpreadDisc n d)
    (h : d.setIoPtr G n g = .ok d') :
    SpreadDisc n d' ∧
    Fits (fun r : Fin n => (d.view r).procSetIoPtr G r n g) (fun r => .ok (d'.view r)) := by
  simp only [Disc.setIoPtr, bind_eq_ok, pure_eq_ok] at h
  obtain ⟨out, hout, out1, hout1, ps, hps, x, hx, ⟨ps1, ptr⟩, hq, h⟩ := h
  have hso := spread_localized (hd.output out ((orErr_eq_ok _ _ _).1 hout)) hout1
  have hsp := hd.outputProb ps ((orErr_eq_ok _ _ _).1 hps)
  obtain ⟨f, rfl, hf⟩ := localValues hso hx
  have hsp1 := spread_query hq hsp
  obtain ⟨-, -, p, rfl, hfq⟩ := query_spread hq
  have hd' : d' = { d with
      output := some out1, outputProb := some ps1, ioPtrLocal := some (List.ofFn p)
      ioPtr := if g then some (getGlobalValues (List.ofFn p)) else d.ioPtr } := by
    rw [← h]
    cases g <;> rfl
  subst hd'
  refine ⟨⟨hd.input, ?_, ?_, hd.emInput, hd.emOutput, spread_some p, hd.ii, hd.oo⟩, ?_⟩
  · rintro s ⟨⟩; exact hso
  · rintro s ⟨⟩; exact hsp1
  unfold Disc.procSetIoPtr
  refine Fits.except (r := fun r => out.view r) (fun r => orErr_view hout r) ?_
  refine Fits.bind (fits_localized hout1) ?_
  refine Fits.except (r := fun r => ps.view r) (fun r => orErr_view hps r) ?_
  refine Fits.except hf ?_
  simp only [List.flatten_cons, List.flatten_nil, List.append_nil]
  refine Fits.bind hfq ?_
  refine Fits.bind (fits_globalPtr (K := K) g _) ?_
  simp only [Disc.view, Option.map_some, oneOf_ofFn]
  exact Fits.ret _

theorem fits_setIiPtr {G : Geometry K} {d d' : Disc K} {g : Bool} (hd : SpreadDisc n d)
    (h : d.setIiPtr G n g = .ok d') :
    SpreadDisc n d' ∧
    Fits (fun r : Fin n => (d.view r).procSetIiPtr G r n g) (fun r => .ok (d'.view r)) := by
  simp only [Disc.setIiPtr, bind_eq_ok, pure_eq_ok] at h
  obtain ⟨out, hout, out1, hout1, ps, hps, x, hx, ⟨ps1, ptr⟩, hq, h⟩ := h
  have hso := spread_localized (hd.emInput out ((orErr_eq_ok _ _ _).1 hout)) hout1
  have hsp := hd.input ps ((orErr_eq_ok _ _ _).1 hps)
  obtain ⟨f, rfl, hf⟩ := localValues hso hx
  have hsp1 := spread_query hq hsp
  obtain ⟨-, -, p, rfl, hfq⟩ := query_spread hq
  have hd' : d' = { d with
      emInput := some out1, input := some ps1, iiPtrLocal := some (List.ofFn p)
      iiPtr := if g then some (getGlobalValues (List.ofFn p)) else d.iiPtr } := by
    rw [← h]
    cases g <;> rfl
  subst hd'
  refine ⟨⟨?_, hd.output, hd.outputProb, ?_, hd.emOutput, hd.io, spread_some p, hd.oo⟩, ?_⟩
  · rintro s ⟨⟩; exact hsp1
  · rintro s ⟨⟩; exact hso
  unfold Disc.procSetIiPtr
  refine Fits.except (r := fun r => out.view r) (fun r => orErr_view hout r) ?_
  refine Fits.bind (fits_localized hout1) ?_
  refine Fits.except (r := fun r => ps.view r) (fun r => orErr_view hps r) ?_
  refine Fits.except hf ?_
  simp only [List.flatten_cons, List.flatten_nil, List.append_nil]
  refine Fits.bind hfq ?_
  refine Fits.bind (fits_globalPtr (K := K) g _) ?_
  simp only [Disc.view, Option.map_some, oneOf_ofFn]
  exact Fits.ret _

theorem fits_setOoPtr {G : Geometry K} {d d' : Disc K} {g : Bool} (hd : SpreadDisc n d)
    (h : d.setOoPtr G n g = .ok d') :
    SpreadDisc n d' ∧
    Fits (fun r : Fin n => (d.view r).procSetOoPtr G r n g) (fun r => .ok (d'.view r)) := by
  simp only [Disc.setOoPtr, bind_eq_ok, pure_eq_ok] at h
  obtain ⟨out, hout, out1, hout1, ps, hps, x, hx, ⟨ps1, ptr⟩, hq, h⟩ := h
  have hso := spread_localized (hd.emOutput out ((orErr_eq_ok _ _ _).1 hout)) hout1
  have hsp := hd.outputProb ps ((orErr_eq_ok _ _ _).1 hps)
  obtain ⟨f, rfl, hf⟩ := localValues hso hx
  have hsp1 := spread_query hq hsp
  obtain ⟨-, -, p, rfl, hfq⟩ := query_spread hq
  have hd' : d' = { d with
      emOutput := some out1, outputProb := some ps1, ooPtrLocal := some (List.ofFn p)
      ooPtr := if g then some (getGlobalValues (List.ofFn p)) else d.ooPtr } := by
    rw [← h]
    cases g <;> rfl
  subst hd'
  refine ⟨⟨hd.input, hd.output, ?_, hd.emInput, ?_, hd.io, hd.ii, spread_some p⟩, ?_⟩
  · rintro s ⟨⟩; exact hsp1
  · rintro s ⟨⟩; exact hso
  unfold Disc.procSetOoPtr
  refine Fits.except (r := fun r => out.view r) (fun r => orErr_view hout r) ?_
  refine Fits.bind (fits_localized hout1) ?_
  refine Fits.except (r := fun r => ps.view r) (fun r => orErr_view hps r) ?_
  refine Fits.except hf ?_
  simp only [List.flatten_cons, List.flatten_nil, List.append_nil]
  refine Fits.bind hfq ?_
  refine Fits.bind (fits_globalPtr (K := K) g _) ?_
  simp only [Disc.view, Option.map_some, oneOf_ofFn]
  exact Fits.ret _

theorem fits_estimateInputVolumeEmulated {G : Geometry K} {d d' : Disc K} (hd : SpreadDisc n d)
    (h : d.estimateInputVolumeEmulated G n = .ok d') :
    SpreadDisc n d' ∧
    Fits (fun r : Fin n => (d.view r).procEstimateInputVolumeEmulated G r n)
      (fun r => .ok (d'.view r)) := by
  simp only [Disc.estimateInputVolumeEmulated, bind_eq_ok, pure_eq_ok] at h
  obtain ⟨em, hem, inp, hinp, ⟨inp1, em1⟩, hv, rfl⟩ := h
  obtain ⟨h1, h2, hf⟩ := fits_estimateVolumeEmulated (hd.input _ ((orErr_eq_ok _ _ _).1 hinp))
    (hd.emInput _ ((orErr_eq_ok _ _ _).1 hem)) hv
  refine ⟨⟨?_, hd.output, hd.outputProb, ?_, hd.emOutput, hd.io, hd.ii, hd.oo⟩, ?_⟩
  · rintro s ⟨⟩; exact h1
  · rintro s ⟨⟩; exact h2
  unfold Disc.procEstimateInputVolumeEmulated
  refine Fits.except (r := fun r => em.view r) (fun r => orErr_view hem r) ?_
  refine Fits.except (r := fun r => inp.view r) (fun r => orErr_view hinp r) ?_
  exact Fits.bind hf (Fits.ret _)

theorem isNone_oneOf {α : Type} (r : Nat) (o : Option (Chunks α)) :
    (oneOf r o).isNone = o.isNone := by cases o <;> rfl

theorem fits_ensureIoPtr {G : Geometry K} {d d' : Disc K} {g : Bool} (hd : SpreadDisc n d)
    (h : d.ensureIoPtr G n g = .ok d') :
    SpreadDisc n d' ∧
    Fits (fun r : Fin n => (d.view r).procEnsureIoPtr G r n g) (fun r => .ok (d'.view r)) := by
  unfold Disc.ensureIoPtr at h
  unfold Disc.procEnsureIoPtr
  have e : ∀ r : Nat, (d.view r).ioPtrLocal.isNone = d.ioPtrLocal.isNone :=
    fun r => isNone_oneOf r _
  simp only [e]
  split at h
  · case isTrue hc =>
    simp only [hc, if_true]
    exact fits_setIoPtr hd h
  · case isFalse hc =>
    cases h
    simp only [hc]
    exact ⟨hd, Fits.ret _⟩

theorem fits_ensureIiPtr {G : Geometry K} {d d' : Disc K} (hd : SpreadDisc n d)
    (h : d.ensureIiPtr G n = .ok d') :
    SpreadDisc n d' ∧
    Fits (fun r : Fin n => (d.view r).procEnsureIiPtr G r n) (fun r => .ok (d'.view r)) := by
  unfold Disc.ensureIiPtr at h
  unfold Disc.procEnsureIiPtr
  have e : ∀ r : Nat, (d.view r).iiPtrLocal.isNone = d.iiPtrLocal.isNone :=
    fun r => isNone_oneOf r _
  simp only [e]
  split at h
  · case isTrue hc =>
    simp only [hc, if_true]
    exact fits_setIiPtr hd h
  · case isFalse hc =>
    cases h
    simp only [hc]
    exact ⟨hd, Fits.ret _⟩

/-! ### The calls of `calculateP` -/

theorem view_volumes (s : SampleSet K) (r : Nat) :
    (s.view r).loc.volumes = oneOf r s.loc.volumes := rfl

theorem view_probabilities (s : SampleSet K) (r : Nat) :
    (s.view r).loc.probabilities = oneOf r s.loc.probabilities := rfl

theorem spread_fn {α : Type} {a : Option (Chunks α)} (h : Spread n a) :
    ∃ f : Option (Fin n → List α), a = f.map List.ofFn ∧
      ∀ r : Fin n, (oneOf r a).map List.flatten = f.map (· r) := by
  cases a with
  | none => exact ⟨none, rfl, fun _ => rfl⟩
  | some c =>
    refine ⟨some fun r => c.getD r [], ?_, ?_⟩
    · rw [Option.map_some, ← spread_ofFn h rfl]
    · intro r
      simp [oneOf]

theorem localPtr {o : Option (Chunks Nat)} (ho : Spread n o) {e : Err} {x : Chunks Nat}
    (h : orErr e o = .ok x) :
    ∃ f : Fin n → List Nat, x = List.ofFn f ∧ ∀ r : Fin n, orErr e (oneOf r o) = .ok [f r] := by
  rw [orErr_eq_ok] at h
  refine ⟨_, spread_ofFn ho h, fun r => ?_⟩
  rw [h]
  rfl

theorem fits_prob {G : Geometry K} {d d' : Disc K} {g : Bool} (hd : SpreadDisc n d)
    (h : prob G n d g = .ok d') :
    SpreadDisc n d' ∧
    Fits (fun r : Fin n => (d.view r).procProbCall G r n g) (fun r => .ok (d'.view r)) := by
  simp only [prob, bind_eq_ok, pure_eq_ok] at h
  obtain ⟨num, hnum, ops, hops, opNum, hopNum, d1, hd1, inp, hinp, inp1, hinp1, ptr, hptr, ops1,
    hops1, P, hP, rfl⟩ := h
  obtain ⟨hs1, hf1⟩ := fits_ensureIoPtr hd hd1
  have hsi := spread_localized (hs1.input _ ((orErr_eq_ok _ _ _).1 hinp)) hinp1
  obtain ⟨p, rfl, hp⟩ := localPtr hs1.io hptr
  obtain ⟨v, hv, hv'⟩ := spread_fn hsi.1.2.1
  rw [hv] at hP
  obtain ⟨Q, e, rfl, hfP⟩ := fit_prob g hP
  refine ⟨⟨?_, hs1.output, hs1.outputProb, hs1.emInput, hs1.emOutput, hs1.io, hs1.ii, hs1.oo⟩, ?_⟩
  · rintro s ⟨⟩
    obtain ⟨⟨h1, h2, h3, hr⟩, hl⟩ := hsi
    cases g
    · exact ⟨⟨h1, h2, spread_some Q, hr⟩, hl⟩
    · exact ⟨⟨h1, h2, spread_some Q, hr⟩, hl⟩
  unfold Disc.procProbCall
  refine Fits.bind (fits_checkNums hnum) ?_
  refine Fits.except (r := fun r => ops.view r) (fun r => orErr_view hops r) ?_
  refine Fits.bind (fits_checkNum hopNum) ?_
  refine Fits.bind hf1 ?_
  refine Fits.except (r := fun r => inp.view r) (fun r => orErr_view hinp r) ?_
  refine Fits.bind (fits_localized hinp1) ?_
  refine Fits.except (r := fun r => [p r]) hp ?_
  refine Fits.except (r := fun r => ops1.view r) (fun r => orErr_view hops1 r) ?_
  simp only [List.flatten_cons, List.flatten_nil, List.append_nil, view_volumes, hv']
  refine Fits.bind ⟨e, hfP⟩ ?_
  cases g
  · simp only [Disc.view, Option.map_some, SampleSet.view, Arrays.map, oneOf_ofFn, if_false,
      Bool.false_eq_true]
    exact Fits.ret _
  · simp only [Disc.view, Option.map_some, SampleSet.view, Arrays.map, oneOf_ofFn, if_true]
    exact Fits.ret _

theorem spread_localToGlobal {s : SampleSet K} (hs : SpreadSet n s) :
    SpreadSet n s.localToGlobal := hs

theorem fits_ifGlobal {s : SampleSet K} (hs : SpreadSet n s) (g : Bool) :
    SpreadSet n (if g then s.localToGlobal else s) ∧
    Fits (fun r : Fin n => Disc.procIfGlobal g (s.view r))
      (fun r => .ok (SampleSet.view r (if g then s.localToGlobal else s))) := by
  unfold Disc.procIfGlobal
  cases g with
  | false => exact ⟨hs, Fits.ret _⟩
  | true =>
    simp only [if_true]
    exact ⟨spread_localToGlobal hs, fits_localToGlobal hs⟩

theorem fits_probOnEmulated {G : Geometry K} {d d' : Disc K} {g : Bool} (hd : SpreadDisc n d)
    (h : probOnEmulated G n d g = .ok d') :
    SpreadDisc n d' ∧
    Fits (fun r : Fin n => (d.view r).procProbOnEmulatedCall G r n g)
      (fun r => .ok (d'.view r)) := by
  simp only [probOnEmulated, bind_eq_ok, pure_eq_ok] at h
  obtain ⟨num, hnum, ops, hops, opNum, hopNum, em0, hem0, emNum, hemNum, d1, hd1, d2, hd2, em, hem,
    x, hx, io, hio, ii, hii, ptr, hptr, ops1, hops1, P, hP, rfl⟩ := h
  obtain ⟨hs1, hf1⟩ := fits_ensureIoPtr hd hd1
  obtain ⟨hs2, hf2⟩ := fits_ensureIiPtr hs1 hd2
  have hse := hs2.emInput _ ((orErr_eq_ok _ _ _).1 hem)
  obtain ⟨f, rfl, hf⟩ := localValues hse hx
  obtain ⟨i, rfl, hi⟩ := localPtr hs2.ii hii
  rw [List.map_ofFn] at hP
  obtain ⟨Q, e, rfl, hfP⟩ := fit_probEm (m := fun r => (f r).length) hptr hP
  have hse' : SpreadSet n { em with
      loc := { em.loc with probabilities := some (List.ofFn Q) }
      probType := some .voronoi } := by
    obtain ⟨⟨h1, h2, h3, hr⟩, hl⟩ := hse
    exact ⟨⟨h1, h2, spread_some Q, hr⟩, hl⟩
  obtain ⟨hs3, hf3⟩ := fits_ifGlobal hse' g
  refine ⟨⟨hs2.input, hs2.output, hs2.outputProb, ?_, hs2.emOutput, hs2.io, hs2.ii, hs2.oo⟩, ?_⟩
  · rintro s ⟨⟩
    exact hs3
  unfold Disc.procProbOnEmulatedCall
  refine Fits.bind (fits_checkNums hnum) ?_
  refine Fits.except (r := fun r => ops.view r) (fun r => orErr_view hops r) ?_
  refine Fits.bind (fits_checkNum hopNum) ?_
  refine Fits.except (r := fun r => em0.view r) (fun r => orErr_view hem0 r) ?_
  refine Fits.bind (fits_checkNum hemNum) ?_
  refine Fits.bind hf1 ?_
  refine Fits.bind hf2 ?_
  refine Fits.except (r := fun r => em.view r) (fun r => orErr_view hem r) ?_
  refine Fits.except hf ?_
  refine Fits.except (r := fun _ => io) (fun _ => hio) ?_
  refine Fits.except (r := fun r => [i r]) hi ?_
  refine Fits.except (r := fun r => ops1.view r) (fun r => orErr_view hops1 r) ?_
  simp only [List.flatten_cons, List.flatten_nil, List.append_nil]
  refine Fits.bind ⟨e, hfP⟩ ?_
  refine Fits.bind (r := fun r => SampleSet.view r (if g then SampleSet.localToGlobal { em with
      loc := { em.loc with probabilities := some (List.ofFn Q) }
      probType := some .voronoi } else { em with
      loc := { em.loc with probabilities := some (List.ofFn Q) }
      probType := some .voronoi })) ?_ (Fits.ret _)
  simp only [SampleSet.view, Arrays.map, oneOf_ofFn] at hf3 ⊢
  exact hf3

theorem fits_probWithEmulatedVolumes {G : Geometry K} {d d' : Disc K} (hd : SpreadDisc n d)
    (h : probWithEmulatedVolumes G n d = .ok d') :
    SpreadDisc n d' ∧
    Fits (fun r : Fin n => (d.view r).procProbWithEmulatedVolumes G r n)
      (fun r => .ok (d'.view r)) := by
  simp only [probWithEmulatedVolumes, bind_eq_ok, pure_eq_ok] at h
  obtain ⟨num, hnum, ops, hops, opNum, hopNum, ops1, hops1, d1, hd1, h⟩ := h
  have hso := spread_localized (hd.outputProb _ ((orErr_eq_ok _ _ _).1 hops)) hops1
  have hd0 : SpreadDisc n { d with outputProb := some ops1 } := by
    refine ⟨hd.input, hd.output, ?_, hd.emInput, hd.emOutput, hd.io, hd.ii, hd.oo⟩
    rintro s ⟨⟩; exact hso
  obtain ⟨hs1, hf1⟩ := fits_estimateInputVolumeEmulated hd0 hd1
  obtain ⟨hs2, hf2⟩ := fits_prob hs1 h
  refine ⟨hs2, ?_⟩
  unfold Disc.procProbWithEmulatedVolumes
  refine Fits.bind (fits_checkNums hnum) ?_
  refine Fits.except (r := fun r => ops.view r) (fun r => orErr_view hops r) ?_
  refine Fits.bind (fits_checkNum hopNum) ?_
  refine Fits.bind (fits_localized hops1) ?_
  exact Fits.bind hf1 hf2

theorem fits_gatherOpt {numNew : Nat} {ptr : Fin n → List Nat} {w : Option (Chunks K)}
    (hw : Spread n w) {pn : List K} (h : gatherLoopOpt numNew (List.ofFn ptr) w = .ok pn) :
    Fits (fun r : Fin n => procGatherOpt numNew (ptr r) (oneOf r w)) (fun _ => .ok pn) := by
  unfold procGatherOpt
  cases w with
  | none =>
    unfold gatherLoopOpt at h
    simp only at h
    split at h
    · case isTrue hc =>
      cases h
      simp only [oneOf, Option.map_none, hc, if_true]
      exact Fits.ret _
    · cases h
  | some w =>
    have hc := spread_ofFn hw rfl
    unfold gatherLoopOpt at h
    simp only at h
    rw [hc] at h
    simp only [oneOf, Option.map_some, List.flatten_cons, List.flatten_nil, List.append_nil]
    exact fit_gather h

theorem fits_raiseIf {c : Prop} [Decidable c] {e : Err} {S : Type} {u : Unit}
    (h : raiseIf c e = .ok u) {f : Fin n → Unit → Proc (Msg K) S} {rs : Fin n → Except Err S}
    (hf : Fits (fun i => f i ()) rs) :
    Fits (fun i => Proc.ofExcept (raiseIf c e) >>= f i) rs :=
  Fits.except (r := fun _ => ()) (fun _ => h) hf

theorem fits_probFromSampleSet {G : Geometry K} {old new old' new' : SampleSet K} {pn : List K}
    (ho : SpreadSet n old) (hn : SpreadSet n new)
    (h : probFromSampleSet G n old new = .ok (pn, old', new')) :
    SpreadSet n old' ∧ SpreadSet n new' ∧
    Fits (fun r : Fin n => procProbFromSampleSet G r n (old.view r) (new.view r))
      (fun r => .ok (pn, old'.view r, new'.view r)) := by
  simp only [probFromSampleSet, bind_eq_ok, pure_eq_ok, Prod.mk.injEq] at h
  obtain ⟨no, hno, nn, hnn, _, hdim, old1, hold1, x, hx, ⟨new1, ptr⟩, hq, pn1, hpn, rfl, rfl,
    rfl⟩ := h
  have hso := spread_localized ho hold1
  obtain ⟨f, rfl, hf⟩ := localValues hso hx
  have hsn := spread_query hq hn
  obtain ⟨-, -, p, rfl, hfq⟩ := query_spread hq
  refine ⟨hso, hsn, ?_⟩
  unfold procProbFromSampleSet
  refine Fits.bind (fits_checkNum hno) ?_
  refine Fits.bind (fits_checkNum hnn) ?_
  refine fits_raiseIf hdim ?_
  refine Fits.bind (fits_localized hold1) ?_
  refine Fits.except hf ?_
  simp only [List.flatten_cons, List.flatten_nil, List.append_nil]
  refine Fits.bind hfq ?_
  refine Fits.bind (fits_gatherOpt hso.1.2.2.1 hpn) ?_
  exact Fits.ret _

theorem fits_probFromSampleSetEmulated {G : Geometry K} {old new em old' new' em' : SampleSet K}
    {pn : List K} (ho : SpreadSet n old) (hn : SpreadSet n new) (he : SpreadSet n em)
    (h : probFromSampleSetEmulated G n old new em = .ok (pn, old', new', em')) :
    SpreadSet n old' ∧ SpreadSet n new' ∧ SpreadSet n em' ∧
    Fits (fun r : Fin n => procProbFromSampleSetEmulated G r n (old.view r) (new.view r)
        (em.view r))
      (fun r => .ok (pn, old'.view r, new'.view r, em'.view r)) := by
  simp only [probFromSampleSetEmulated, bind_eq_ok, pure_eq_ok, Prod.mk.injEq] at h
  obtain ⟨no, hno, nn, hnn, ne, hne, _, hdim, em1, hem1, x, hx, ⟨old1, ptr1⟩, hq1, ⟨new1, ptr2⟩,
    hq2, ⟨pe, w⟩, hpe, pe', hpe', pn1, hpn, rfl, rfl, rfl, rfl⟩ := h
  have hse := spread_localized he hem1
  obtain ⟨f, rfl, hf⟩ := localValues hse hx
  have hs1 := spread_query hq1 ho
  have hs2 := spread_query hq2 hn
  obtain ⟨-, -, p1, rfl, hfq1⟩ := query_spread hq1
  obtain ⟨-, -, p2, rfl, hfq2⟩ := query_spread hq2
  refine ⟨hs1, hs2, hse, ?_⟩
  unfold procProbFromSampleSetEmulated
  refine Fits.bind (fits_checkNum hno) ?_
  refine Fits.bind (fits_checkNum hnn) ?_
  refine Fits.bind (fits_checkNum hne) ?_
  refine fits_raiseIf hdim ?_
  refine Fits.bind (fits_localized hem1) ?_
  refine Fits.except hf ?_
  simp only [List.flatten_cons, List.flatten_nil, List.append_nil]
  refine Fits.bind hfq1 ?_
  refine Fits.bind hfq2 ?_
  refine Fits.bind (fit_em hpe hpe' hpn) ?_
  exact Fits.ret _

theorem fits_probFromDiscInput {G : Geometry K} {d : Disc K} {new new' : SampleSet K}
    {pn : List K} (hd : SpreadDisc n d) (hn : SpreadSet n new)
    (h : probFromDiscInput G n d new = .ok (pn, new')) :
    SpreadSet n new' ∧
    Fits (fun r : Fin n => procProbFromDiscInput G r n (d.view r) (new.view r))
      (fun r => .ok (pn, new'.view r)) := by
  simp only [probFromDiscInput, bind_eq_ok, pure_eq_ok, Prod.mk.injEq] at h
  obtain ⟨em, hem, em1, hem1, pe, hpe, num, hnum, nn, hnn, inp, hinp, _, hdim, x, hx, ⟨new1, ptr⟩,
    hq, pn1, hpn, rfl, rfl⟩ := h
  have hs0 : SpreadSet n em := by
    rw [orErr_eq_ok] at hem
    cases he : d.emInput with
    | some e =>
      rw [he] at hem
      cases hem
      exact hd.emInput _ he
    | none =>
      rw [he] at hem
      exact hd.input _ hem
  have hse := spread_localized hs0 hem1
  obtain ⟨f, rfl, hf⟩ := localValues hse hx
  have hsn := spread_query hq hn
  obtain ⟨-, -, p, rfl, hfq⟩ := query_spread hq
  refine ⟨hsn, ?_⟩
  have hpe' : pe = List.ofFn fun r : Fin n => pe.getD r [] :=
    spread_ofFn hse.1.2.2.1 ((orErr_eq_ok _ _ _).1 hpe)
  unfold procProbFromDiscInput
  refine Fits.except (r := fun r => em.view r) ?_ ?_
  · intro r
    rw [orErr_eq_ok] at hem ⊢
    simp only [Disc.view]
    cases he : d.emInput with
    | some e => rw [he] at hem; cases hem; rfl
    | none =>
      rw [he] at hem
      have : d.input = some em := hem
      rw [this]
      rfl
  refine Fits.bind (fits_localized hem1) ?_
  refine Fits.except (r := fun r : Fin n => [pe.getD r []]) ?_ ?_
  · intro r
    rw [orErr_eq_ok] at hpe ⊢
    rw [view_probabilities, hpe]
    rfl
  have hd1 : ∀ r : Nat, (d.view r).putEmulated (em1.view r) = (d.putEmulated em1).view r := by
    intro r
    simp only [Disc.view, Disc.putEmulated]
    cases he : d.emInput <;> simp
  simp only [hd1]
  refine Fits.bind (fits_checkNums (d := d.putEmulated em1) hnum) ?_
  refine Fits.bind (fits_checkNum hnn) ?_
  have hinp' : orErr Err.attributeError (d.putEmulated em1).input = .ok inp := hinp
  refine Fits.except (r := fun r => inp.view r) (fun r => orErr_view hinp' r) ?_
  refine fits_raiseIf hdim ?_
  refine Fits.except hf ?_
  simp only [List.flatten_cons, List.flatten_nil, List.append_nil]
  refine Fits.bind hfq ?_
  rw [hpe'] at hpn
  refine Fits.bind (fit_gather hpn) ?_
  exact Fits.ret _

/-! ### C119 -/

/-- **C119.** `check_num` on processes with their own speed: whenever it finds a number when all of them
are in step, every process comes to that number and to nothing else, under every schedule. -/
theorem C119_check_num (hpos : 0 < n) {s : SampleSet K} {num : Nat} (h : s.checkNum n = .ok num) :
    RunsTo (fun r : Fin n => (s.view r).procCheckNum) (fun _ => .ok num) :=
  (fits_checkNum h).runs hpos

/-- **C119.** `global_to_local`: process `r` ends with part `r` of the arrays. -/
theorem C119_global_to_local (hpos : 0 < n) {s s' : SampleSet K} (h : s.globalToLocal n = .ok s') :
    RunsTo (fun r : Fin n => (s.view r).procGlobalToLocal r n) (fun r => .ok (s'.view r)) :=
  (fits_globalToLocal h).runs hpos

/-- **C119.** `local_to_global`: every process ends with the same global arrays, the parts of all
processes in the order of the ranks. -/
theorem C119_local_to_global (hpos : 0 < n) {s : SampleSet K} (hs : SpreadSet n s) :
    RunsTo (fun r : Fin n => (s.view r).procLocalToGlobal)
      (fun r => .ok (s.localToGlobal.view r)) :=
  (fits_localToGlobal hs).runs hpos

/-- **C119.** `estimate_volume`. -/
theorem C119_estimate_volume (hpos : 0 < n) {G : Geometry K} {s s' : SampleSet K} {k : Nat}
    {mc : Fin n → List (List K)} (hs : SpreadSet n s)
    (h : s.estimateVolume G n k (List.ofFn mc) = .ok s') :
    SpreadSet n s' ∧ RunsTo (fun r : Fin n => (s.view r).procEstimateVolume G r n k (mc r))
      (fun r => .ok (s'.view r)) :=
  let h0 := fits_estimateVolume hs h; ⟨h0.1, h0.2.runs hpos⟩

/-- **C119.** `estimate_volume_emulated`. -/
theorem C119_estimate_volume_emulated (hpos : 0 < n) {G : Geometry K} {s em s' em' : SampleSet K}
    (hs : SpreadSet n s) (hem : SpreadSet n em)
    (h : s.estimateVolumeEmulated G n em = .ok (s', em')) :
    SpreadSet n s' ∧ SpreadSet n em' ∧
      RunsTo (fun r : Fin n => (s.view r).procEstimateVolumeEmulated G r n (em.view r))
      (fun r => .ok (s'.view r, em'.view r)) :=
  let h0 := fits_estimateVolumeEmulated hs hem h; ⟨h0.1, h0.2.1, h0.2.2.runs hpos⟩

/-- **C119.** `check_nums` of a discretization. -/
theorem C119_check_nums (hpos : 0 < n) {d : Disc K} {num : Nat} (h : d.checkNums n = .ok num) :
    RunsTo (fun r : Fin n => (d.view r).procCheckNums) (fun _ => .ok num) :=
  (fits_checkNums h).runs hpos

/-- **C119.** `set_io_ptr`. -/
theorem C119_set_io_ptr (hpos : 0 < n)
    {G : Geometry K} {d d' : Disc K} {g : Bool} (hd : SpreadDisc n d)
    (h : d.setIoPtr G n g = .ok d') :
    SpreadDisc n d' ∧
    RunsTo (fun r : Fin n => (d.view r).procSetIoPtr G r n g) (fun r => .ok (d'.view r)) :=
  let h0 := fits_setIoPtr hd h; ⟨h0.1, h0.2.runs hpos⟩

/-- **C119.** `set_emulated_ii_ptr`. -/
theorem C119_set_ii_ptr (hpos : 0 < n)
    {G : Geometry K} {d d' : Disc K} {g : Bool} (hd : SpreadDisc n d)
    (h : d.setIiPtr G n g = .ok d') :
    SpreadDisc n d' ∧
    RunsTo (fun r : Fin n => (d.view r).procSetIiPtr G r n g) (fun r => .ok (d'.view r)) :=
  let h0 := fits_setIiPtr hd h; ⟨h0.1, h0.2.runs hpos⟩

/-- **C119.** `set_emulated_oo_ptr`. -/
theorem C119_set_oo_ptr (hpos : 0 < n)
    {G : Geometry K} {d d' : Disc K} {g : Bool} (hd : SpreadDisc n d)
    (h : d.setOoPtr G n g = .ok d') :
    SpreadDisc n d' ∧
    RunsTo (fun r : Fin n => (d.view r).procSetOoPtr G r n g) (fun r => .ok (d'.view r)) :=
  let h0 := fits_setOoPtr hd h; ⟨h0.1, h0.2.runs hpos⟩

/-- **C119.** `prob`: under every schedule every process ends with its part of the probabilities that
the call gives when the processes are in step, and with the same global array. -/
theorem C119_prob (hpos : 0 < n) {G : Geometry K} {d d' : Disc K} {g : Bool} (hd : SpreadDisc n d)
    (h : prob G n d g = .ok d') :
    SpreadDisc n d' ∧
    RunsTo (fun r : Fin n => (d.view r).procProbCall G r n g) (fun r => .ok (d'.view r)) :=
  let h0 := fits_prob hd h; ⟨h0.1, h0.2.runs hpos⟩

/-- **C119.** `prob_on_emulated_samples`. -/
theorem C119_prob_on_emulated (hpos : 0 < n)
    {G : Geometry K} {d d' : Disc K} {g : Bool} (hd : SpreadDisc n d)
    (h : probOnEmulated G n d g = .ok d') :
    SpreadDisc n d' ∧
    RunsTo (fun r : Fin n => (d.view r).procProbOnEmulatedCall G r n g)
      (fun r => .ok (d'.view r)) :=
  let h0 := fits_probOnEmulated hd h; ⟨h0.1, h0.2.runs hpos⟩

/-- **C119.** `prob_with_emulated_volumes`. -/
theorem C119_prob_with_emulated_volumes (hpos : 0 < n)
    {G : Geometry K} {d d' : Disc K} (hd : SpreadDisc n d)
    (h : probWithEmulatedVolumes G n d = .ok d') :
    SpreadDisc n d' ∧
    RunsTo (fun r : Fin n => (d.view r).procProbWithEmulatedVolumes G r n)
      (fun r => .ok (d'.view r)) :=
  let h0 := fits_probWithEmulatedVolumes hd h; ⟨h0.1, h0.2.runs hpos⟩

/-- **C119.** `prob_from_sample_set`. -/
theorem C119_prob_from_sample_set (hpos : 0 < n)
    {G : Geometry K} {old new old' new' : SampleSet K} {pn : List K}
    (ho : SpreadSet n old) (hn : SpreadSet n new)
    (h : probFromSampleSet G n old new = .ok (pn, old', new')) :
    SpreadSet n old' ∧ SpreadSet n new' ∧
    RunsTo (fun r : Fin n => procProbFromSampleSet G r n (old.view r) (new.view r))
      (fun r => .ok (pn, old'.view r, new'.view r)) :=
  let h0 := fits_probFromSampleSet ho hn h; ⟨h0.1, h0.2.1, h0.2.2.runs hpos⟩

/-- **C119.** `prob_from_sample_set_with_emulated_volumes`. -/
theorem C119_prob_from_sample_set_emulated (hpos : 0 < n)
    {G : Geometry K} {old new em old' new' em' : SampleSet K}
    {pn : List K} (ho : SpreadSet n old) (hn : SpreadSet n new) (he : SpreadSet n em)
    (h : probFromSampleSetEmulated G n old new em = .ok (pn, old', new', em')) :
    SpreadSet n old' ∧ SpreadSet n new' ∧ SpreadSet n em' ∧
    RunsTo (fun r : Fin n => procProbFromSampleSetEmulated G r n (old.view r) (new.view r)
        (em.view r))
      (fun r => .ok (pn, old'.view r, new'.view r, em'.view r)) :=
  let h0 := fits_probFromSampleSetEmulated ho hn he h; ⟨h0.1, h0.2.1, h0.2.2.1, h0.2.2.2.runs hpos⟩

/-- **C119.** `prob_from_discretization_input`. -/
theorem C119_prob_from_discretization_input (hpos : 0 < n)
    {G : Geometry K} {d : Disc K} {new new' : SampleSet K}
    {pn : List K} (hd : SpreadDisc n d) (hn : SpreadSet n new)
    (h : probFromDiscInput G n d new = .ok (pn, new')) :
    SpreadSet n new' ∧
    RunsTo (fun r : Fin n => procProbFromDiscInput G r n (d.view r) (new.view r))
      (fun r => .ok (pn, new'.view r)) :=
  let h0 := fits_probFromDiscInput hd hn h; ⟨h0.1, h0.2.runs hpos⟩

end

theorem Fits.of_except {M R : Type} {x : Fin n → Except Err R} {r : Fin n → R}
    (h : ∀ i, x i = .ok (r i)) :
    Fits (fun i => (Proc.ofExcept (x i) : Proc M R)) (fun i => .ok (r i)) := by
  simp only [h]
  exact Fits.ret _

/-- Programs that fit together and then come apart come apart. -/
theorem Fits.apart {M R S : Type} {ps : Fin n → Proc M R} {r : Fin n → R}
    (h : Fits ps (fun i => .ok (r i))) {f : Fin n → R → Proc M S} {i j : Fin n}
    (hf : ComeApart i j fun i => f i (r i)) : ComeApart i j (fun i => ps i >>= f i) := by
  obtain ⟨d, h⟩ := h
  generalize hrs : (fun i => (Except.ok (r i) : Except Err R)) = rs at h
  induction h with
  | @done ps rs h =>
    subst hrs
    have : (fun i => f i (r i)) = fun i => ps i >>= f i := by
      funext i
      rw [result_eq_ok (h i)]
      rfl
    rw [← this]
    exact hf
  | coll t m k h hk ih =>
    refine .coll t m (fun i ms => k i ms >>= f i) (fun i => ?_) (ih hrs)
    rw [h i]
    rfl

namespace Ex

/-- The second process has two samples and one volume; there are no global arrays. -/
def unevenSet : SampleSet ℚ where
  dim := 1
  loc := { values := some [[[0], [1]], [[2], [3]]], volumes := some [[1/4, 1/4], [1/2]] }

/-- **C119, negation.** `check_num` when the local arrays of one process do not fit together: that
process raises, and the other one waits in `allreduce` for ever. -/
theorem C119_negation_uneven :
    ((unevenSet.view 1).procCheckNum).result = some (.error .lengthNotMatching) ∧
    ∀ sched : List (Fin 2),
      (((Sys.start fun r : Fin 2 => (unevenSet.view r).procCheckNum).run sched) 0).1.result =
        none := by
  have h1 : ((unevenSet.view ((1 : Fin 2) : Nat)).procCheckNum).result =
      some (.error .lengthNotMatching) := by decide +kernel
  have h0 : ((unevenSet.view ((0 : Fin 2) : Nat)).procCheckNum).result = none := by decide +kernel
  exact ⟨h1, C114_negation_left (ps := fun r : Fin 2 => (unevenSet.view r).procCheckNum) h1 h0⟩

/-- The hypotheses of the C119 theorems are met by `probDisc`, which has no local arrays yet, ... -/
theorem spread_probDisc : SpreadDisc 2 probDisc := by
  refine ⟨?_, ?_, ?_, ?_, ?_, ?_, ?_, ?_⟩
  · rintro s ⟨⟩; simp [SpreadSet, Arrays.All, Spread]
  · rintro s ⟨⟩; simp [SpreadSet, Arrays.All, Spread]
  · rintro s ⟨⟩; simp [SpreadSet, Arrays.All, Spread]
  · rintro s ⟨⟩
  · rintro s ⟨⟩
  · simp [Spread, probDisc]
  · simp [Spread, probDisc]
  · simp [Spread, probDisc]

example : (prob G 2 probDisc true).toOption.isSome = true := by decide +kernel

/-- ... so it may run on two processes with their own speed.  This is one of the schedules. -/
example : ((((Sys.start fun r : Fin 2 => (probDisc.view r).procProbCall G r 2 true).run
    ((List.replicate 10 [0, 1, 1, 0, 0]).flatten)) 1).1.result.bind fun x => x.toOption.bind fun d =>
      d.input.bind (·.loc.probabilities)) = some [[1/8, 1/8]] := by decide +kernel

/-- A set with local arrays only, spread over two processes. -/
def spreadLocal : SampleSet ℚ where
  dim := 1
  loc := { values := some [[[0], [1]], [[2]]], volumes := some [[1/4, 1/4], [1/2]] }

example : SpreadSet 2 spreadLocal ∧ spreadLocal.checkNum 2 = .ok 3 ∧
    spreadLocal.localToGlobal.glob.volumes = some [1/4, 1/4, 1/2] := by
  refine ⟨?_, rfl, rfl⟩
  simp [SpreadSet, Arrays.All, Spread, spreadLocal]

end Ex

end BET
