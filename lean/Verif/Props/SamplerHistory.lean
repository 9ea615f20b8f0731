import Verif.Model.SamplerHistory
import Verif.Props.Sampler

/-!
# C106: histories of calls on a sampler, C107: the reference value
-/

set_option autoImplicit false
set_option linter.unusedSectionVars false
set_option linter.unusedSimpArgs false

namespace BET

section
variable {K : Type}

/-! ## Specification -/

/-- The call may change the set `a`: it samples into it, evaluates the model at it or gathers it. -/
def Spec.Writes (m : SamplerState K) (a : Nat) : SamplerCall K → Prop
  | .newSet _ => False
  | .random _ _ obj _ _ => obj = .ref a
  | .lhs obj _ _ => obj = .ref a
  | .regular _ _ => False
  | .compute input _ => input = some a ∨ input = none ∧ m.current = some a
  | .localToGlobal => m.current = some a ∨ ∃ d, m.discs.getLast? = some d ∧ (a = d.1 ∨ a = d.2)

/-- The set has local values only if they are the parts of its global values. -/
def Spec.UpToDate (s : SampleSet K) : Prop := ∀ v, s.glob.values = some v → Spec.LocalCurrent s v

/-- The call follows the rules: it does not sample into a set that is part of a discretization, and gathers what it
computes. -/
def Spec.Careful (m : SamplerState K) : SamplerCall K → Prop
  | .newSet _ => True
  | .random _ _ obj _ globalize => globalize = true ∧ ∀ a, obj = .ref a → ∀ d ∈ m.discs, a ≠ d.1 ∧ a ≠ d.2
  | .lhs obj _ globalize => globalize = true ∧ ∀ a, obj = .ref a → ∀ d ∈ m.discs, a ≠ d.1 ∧ a ≠ d.2
  | .regular _ _ => True
  | .compute _ globalize => globalize = true
  | .localToGlobal => True

/-- `a` is the set that was sampled or evaluated last, after the call. -/
def Spec.LastSet (m : SamplerState K) (a : Nat) : SamplerCall K → Prop
  | .random _ _ obj _ _ => (∀ b, obj = .ref b → a = b) ∧ ((∀ b, obj ≠ .ref b) → a = m.heap.length)
  | .lhs obj _ _ => (∀ b, obj = .ref b → a = b) ∧ ((∀ b, obj ≠ .ref b) → a = m.heap.length)
  | .regular _ _ => a = m.heap.length
  | .compute input _ => input = some a ∨ input = none ∧ m.current = some a
  | .newSet _ => m.current = some a
  | .localToGlobal => m.current = some a

/-- Output row `k` of the discretization is the output of the model for input row `k`. -/
def Spec.PairedBy (f : List K → List K) (m : SamplerState K) (d : Nat × Nat) : Prop :=
  ∃ i o v, m.heap[d.1]? = some i ∧ m.heap[d.2]? = some o ∧ i.glob.values = some v ∧ o.glob.values = some (v.map f)

open Spec

end

section
variable {K : Type} [Field K]

/-- A history each of whose calls has the property `P` in the state it meets. -/
inductive Spec.History (S : SamplerModel K) (P : SamplerState K → SamplerCall K → Prop) :
    SamplerState K → List (SamplerCall K) → SamplerState K → Prop
  | nil (m : SamplerState K) : History S P m [] m
  | cons {m m1 m2 : SamplerState K} {c : SamplerCall K} {cs : List (SamplerCall K)} (hP : P m c)
      (h1 : m.exec S c = .ok m1) (h2 : History S P m1 cs m2) : History S P m (c :: cs) m2

open Spec

/-- Histories are runs. -/
theorem history_run {S : SamplerModel K} {P : SamplerState K → SamplerCall K → Prop} {m m' : SamplerState K}
    {cs : List (SamplerCall K)} (h : History S P m cs m') : m.run S cs = .ok m' := by
  induction h with
  | nil m => rfl
  | cons _ h1 _ ih => simp only [SamplerState.run, List.foldlM_cons, h1, ok_bind] at ih ⊢; exact ih

theorem run_history {S : SamplerModel K} {m m' : SamplerState K} {cs : List (SamplerCall K)}
    (h : m.run S cs = .ok m') : History S (fun _ _ => True) m cs m' := by
  induction cs generalizing m with
  | nil =>
    obtain rfl : m' = m := ((pure_eq_ok _ _).mp h).symm
    exact .nil _
  | cons c cs ih =>
    simp only [SamplerState.run, List.foldlM_cons, bind_eq_ok] at h
    obtain ⟨m1, h1, h2⟩ := h
    exact .cons trivial h1 (ih h2)

/-! ## Frames -/

theorem put_get {m : SamplerState K} {s : SampleSet K} {obj : ObjRef K} {a : Nat} (ha : a < m.heap.length)
    (h : obj ≠ .ref a) : (m.put s obj).heap[a]? = m.heap[a]? := by
  cases obj with
  | ref b =>
    have : b ≠ a := fun e => h (by rw [e])
    simp [SamplerState.put, List.getElem?_set, this]
  | _ => simp [SamplerState.put, List.getElem?_append_left ha]

theorem put_discs (m : SamplerState K) (s : SampleSet K) (obj : ObjRef K) : (m.put s obj).discs = m.discs := by
  cases obj <;> rfl

theorem put_length (m : SamplerState K) (s : SampleSet K) (obj : ObjRef K) :
    m.heap.length ≤ (m.put s obj).heap.length := by
  cases obj <;> simp [SamplerState.put]

theorem globalizeAt_get (m : SamplerState K) (b a : Nat) :
    (m.globalizeAt b).heap[a]? = if b = a then m.heap[a]?.map SampleSet.localToGlobal else m.heap[a]? := by
  simp only [SamplerState.globalizeAt, List.getElem?_modify]
  split <;> simp

theorem globalize_discs (m : SamplerState K) : m.globalizeCurrent.globalizeDisc.discs = m.discs := by
  unfold SamplerState.globalizeDisc SamplerState.globalizeCurrent
  cases m.current <;> cases m.discs.getLast? <;> simp [SamplerState.globalizeAt] <;> split <;> simp

theorem globalizeCurrent_discs (m : SamplerState K) : m.globalizeCurrent.discs = m.discs := by
  unfold SamplerState.globalizeCurrent
  cases m.current <;> rfl

/-- Gathering changes a set into the gathered one, several times perhaps. -/
theorem globalize_get (m : SamplerState K) (a : Nat) (P : SampleSet K → Prop)
    (hP : ∀ s, P s → P s.localToGlobal) (h : ∀ s, m.heap[a]? = some s → P s) :
    ∀ s, m.globalizeCurrent.globalizeDisc.heap[a]? = some s → P s := by
  have hAt : ∀ (m : SamplerState K) (b : Nat), (∀ s, m.heap[a]? = some s → P s) →
      ∀ s, (m.globalizeAt b).heap[a]? = some s → P s := by
    intro m b h s hs
    rw [globalizeAt_get] at hs
    split at hs
    · cases ha : m.heap[a]? with
      | none => simp [ha] at hs
      | some t =>
        rw [ha] at hs
        cases hs
        exact hP _ (h t ha)
    · exact h s hs
  have hCur : ∀ s, m.globalizeCurrent.heap[a]? = some s → P s := by
    unfold SamplerState.globalizeCurrent
    cases m.current with
    | none => exact h
    | some b => exact hAt m b h
  unfold SamplerState.globalizeDisc
  cases m.globalizeCurrent.discs.getLast? with
  | none => exact hCur
  | some d => exact hAt _ _ (hAt _ _ hCur)

theorem globalize_same (m : SamplerState K) (a : Nat) (h : ¬ Writes m a .localToGlobal) :
    m.globalizeCurrent.globalizeDisc.heap[a]? = m.heap[a]? := by
  simp only [Writes, not_or, not_exists, not_and] at h
  have hCur : m.globalizeCurrent.heap[a]? = m.heap[a]? := by
    unfold SamplerState.globalizeCurrent
    cases hc : m.current with
    | none => rfl
    | some b =>
      simp only [globalizeAt_get]
      rw [if_neg]
      rintro rfl
      exact h.1 hc
  unfold SamplerState.globalizeDisc
  rw [globalizeCurrent_discs]
  cases hd : m.discs.getLast? with
  | none => exact hCur
  | some d =>
    have := h.2 d hd
    simp only [globalizeAt_get]
    rw [if_neg (Ne.symm this.2), if_neg (Ne.symm this.1), hCur]

theorem globalize_length (m : SamplerState K) : m.globalizeCurrent.globalizeDisc.heap.length = m.heap.length := by
  unfold SamplerState.globalizeDisc SamplerState.globalizeCurrent
  cases m.current <;> cases m.discs.getLast? <;> simp [SamplerState.globalizeAt] <;> split <;> simp

theorem compute_inv {S : SamplerModel K} {m m' : SamplerState K} {input : Option Nat} {g : Bool}
    (h : m.compute S input g = .ok m') :
    ∃ a s d i o, input.or m.current = some a ∧ m.heap[a]? = some s ∧
      computeQoi S.size S.model S.outDim S.ee S.jac s g = .ok d ∧ d.input = some i ∧ d.output = some o ∧
      m' = ⟨m.heap.set a i ++ [o], some a, m.discs ++ [(a, m.heap.length)]⟩ := by
  simp only [SamplerState.compute, bind_eq_ok] at h
  obtain ⟨a, ha, s, hs, d, hd, i, hi, o, ho, h⟩ := h
  exact ⟨a, s, d, i, o, (orErr_eq_ok _ _ _).mp ha, (getIdx_eq_ok _ _ _).mp hs, hd, (orErr_eq_ok _ _ _).mp hi,
    (orErr_eq_ok _ _ _).mp ho, ((pure_eq_ok _ _).mp h).symm⟩

theorem exec_frame {S : SamplerModel K} {m m' : SamplerState K} {c : SamplerCall K} (h : m.exec S c = .ok m') :
    m.discs <+: m'.discs ∧ m.heap.length ≤ m'.heap.length ∧
      ∀ a, a < m.heap.length → ¬ Writes m a c → m'.heap[a]? = m.heap[a]? := by
  cases c with
  | newSet s =>
    cases (pure_eq_ok _ _).mp h
    exact ⟨List.prefix_rfl, by simp, fun a ha _ => List.getElem?_append_left ha⟩
  | random st rv obj n g =>
    simp only [SamplerState.exec, bind_eq_ok] at h
    obtain ⟨x, -, s, -, h⟩ := h
    cases (pure_eq_ok _ _).mp h
    exact ⟨by rw [put_discs], put_length _ _ _, fun a ha hw => put_get ha hw⟩
  | lhs obj cube g =>
    simp only [SamplerState.exec, bind_eq_ok] at h
    obtain ⟨x, -, s, -, h⟩ := h
    cases (pure_eq_ok _ _).mp h
    exact ⟨by rw [put_discs], put_length _ _ _, fun a ha hw => put_get ha hw⟩
  | regular obj nums =>
    simp only [SamplerState.exec, bind_eq_ok] at h
    obtain ⟨x, -, s, -, h⟩ := h
    cases (pure_eq_ok _ _).mp h
    exact ⟨by rw [put_discs], put_length _ _ _, fun a ha hw => put_get ha (by simp)⟩
  | compute input g =>
    obtain ⟨b, s, d, i, o, hb, hs, -, -, -, rfl⟩ := compute_inv h
    refine ⟨List.prefix_append _ _, by simp, fun a ha hw => ?_⟩
    have hne : b ≠ a := by
      rintro rfl
      apply hw
      cases input with
      | none => exact .inr ⟨rfl, by simpa using hb⟩
      | some x => exact .inl (by simpa using hb)
    simp only []
    rw [List.getElem?_append_left (by simpa using ha), List.getElem?_set_ne hne]
  | localToGlobal =>
    cases (pure_eq_ok _ _).mp h
    exact ⟨by rw [globalize_discs], by rw [globalize_length], fun a _ hw => globalize_same m a hw⟩

/-- C106: whatever calls are made, the discretizations that were returned stay what they are, and a sample set is
changed only by calls that sample into it, evaluate the model at it or gather it. -/
theorem C106_frame {S : SamplerModel K} {m m' : SamplerState K} {cs : List (SamplerCall K)} {a : Nat}
    (ha : a < m.heap.length) (h : History S (fun m c => ¬ Writes m a c) m cs m') :
    m.discs <+: m'.discs ∧ m'.heap[a]? = m.heap[a]? := by
  induction h with
  | nil m => exact ⟨List.prefix_rfl, rfl⟩
  | cons hP h1 _ ih =>
    obtain ⟨g1, g2, g3⟩ := exec_frame h1
    obtain ⟨i1, i2⟩ := ih (lt_of_lt_of_le ha g2)
    exact ⟨g1.trans i1, i2.trans (g3 a ha hP)⟩

/-! ## Pairs -/

theorem upToDate_gather (s : SampleSet K) (h : UpToDate s) : UpToDate s.localToGlobal ∧
    ∀ v, s.glob.values = some v → s.localToGlobal.glob.values = some v := by
  refine ⟨fun v hv => ?_, fun v hv => ?_⟩
  · cases hl : s.loc.values with
    | none => exact .inl (by simpa [SampleSet.localToGlobal] using hl)
    | some c =>
      refine .inr ⟨c, by simpa [SampleSet.localToGlobal] using hl, ?_⟩
      simpa [SampleSet.localToGlobal, Arrays.map₂, hl, SampleSet.gatherArr, getGlobalValues] using hv
  · rcases h v hv with hl | ⟨c, hl, hc⟩
    · simp [SampleSet.localToGlobal, Arrays.map₂, hl, SampleSet.gatherArr, hv]
    · simp [SampleSet.localToGlobal, Arrays.map₂, hl, SampleSet.gatherArr, getGlobalValues, hc]

theorem upToDate_of_gathered {s : SampleSet K} {c : Chunks (List K)} (h : s.loc.values = some c) :
    UpToDate s.localToGlobal := by
  intro v hv
  refine .inr ⟨c, by simpa [SampleSet.localToGlobal] using h, ?_⟩
  simpa [SampleSet.localToGlobal, Arrays.map₂, h, SampleSet.gatherArr, getGlobalValues] using hv

/-- What the model is evaluated at: the local values, whatever the global ones are. -/
theorem compute_pairs {size : Nat} (hsize : 0 < size)
    {model : Nat → List (List K) → ModelOutput K} {outDim : Nat} {ee jac : Bool}
    {f e : List K → List K} {j : List K → List (List K)} (hm : RowWise model ee jac f e j)
    (hf : ∀ row, (f row).length = outDim) {s : SampleSet K} {d : Disc K}
    (h : computeQoi size model outDim ee jac s true = .ok d) :
    ∃ i o v, d.input = some i ∧ d.output = some o ∧ UpToDate i ∧ UpToDate o ∧ i.glob.values = some v ∧
      o.glob.values = some (v.map f) ∧ (UpToDate s → ∀ w, s.glob.values = some w → v = w) := by
  obtain ⟨s', c, hl, hc, hw⟩ : ∃ s' c, s.localized size = .ok s' ∧ s'.loc.values = some c ∧
      (UpToDate s → ∀ w, s.glob.values = some w → c.flatten = w) := by
    cases hn : s.loc.values with
    | some c =>
      refine ⟨s, c, by simp [SampleSet.localized, hn], hn, fun hs w hw => ?_⟩
      rcases hs w hw with h0 | ⟨c', h0, hc'⟩
      · rw [hn] at h0; cases h0
      · rw [hn] at h0; cases h0; exact hc'
    | none =>
      have hl := SampleSet.localized_none size hn
      cases hg : s.globalToLocal size with
      | error er =>
        simp only [computeQoi, hl, hg, error_bind] at h
        cases h
      | ok s' =>
        have hg0 := hg
        simp only [SampleSet.globalToLocal, bind_eq_ok, pure_eq_ok] at hg
        obtain ⟨n, -, rfl⟩ := hg
        cases hv : s.glob.values with
        | none =>
          simp only [computeQoi, hl, hg0, ok_bind, Arrays.map₂, hv, SampleSet.splitArr, hn, orErr_none, error_bind] at h
          cases h
        | some v =>
          refine ⟨_, arraySplit size v, by rw [hl]; exact hg0, ?_, fun _ w hw => ?_⟩
          · simp [Arrays.map₂, hv, SampleSet.splitArr]
          · cases hw
            exact flatten_arraySplit _ _ hsize
  rw [computeQoi_sets hm hl hc (fun ch hch row hrow => hf row) true] at h
  have := new_eq_ok h
  subst this
  refine ⟨_, _, c.flatten, rfl, rfl, ?_, ?_, ?_, ?_, hw⟩
  · exact upToDate_of_gathered hc
  · exact upToDate_of_gathered rfl
  · simp [SampleSet.globalizeIf, SampleSet.localToGlobal, Arrays.map₂, hc, SampleSet.gatherArr, getGlobalValues]
  · simp [SampleSet.localToGlobal, Arrays.map₂, SampleSet.gatherArr, getGlobalValues, List.map_flatten]

/-- The discretization pairs inputs and outputs and its sets are up to date. -/
def PairedNow (f : List K → List K) (m : SamplerState K) (d : Nat × Nat) : Prop :=
  ∃ i o v, m.heap[d.1]? = some i ∧ m.heap[d.2]? = some o ∧ UpToDate i ∧ UpToDate o ∧ i.glob.values = some v ∧
    o.glob.values = some (v.map f)

/-- The invariant of careful histories. -/
def SamplerInv (f : List K → List K) (m : SamplerState K) : Prop := ∀ d ∈ m.discs, PairedNow f m d

theorem paired_lt {f : List K → List K} {m : SamplerState K} {d : Nat × Nat} (h : PairedNow f m d) :
    d.1 < m.heap.length ∧ d.2 < m.heap.length := by
  obtain ⟨i, o, v, h1, h2, -⟩ := h
  exact ⟨(List.getElem?_eq_some_iff.mp h1).1, (List.getElem?_eq_some_iff.mp h2).1⟩

/-- It is enough that the values of the sets of the discretization stay and that these stay up to date. -/
theorem pairedNow_of {f : List K → List K} {m m' : SamplerState K} {d : Nat × Nat} (h : PairedNow f m d)
    (hk : ∀ k s v, (k = d.1 ∨ k = d.2) → m.heap[k]? = some s → UpToDate s → s.glob.values = some v →
      ∃ t, m'.heap[k]? = some t ∧ UpToDate t ∧ t.glob.values = some v) : PairedNow f m' d := by
  obtain ⟨i, o, v, h1, h2, u1, u2, v1, v2⟩ := h
  obtain ⟨i', g1, g2, g3⟩ := hk _ i v (.inl rfl) h1 u1 v1
  obtain ⟨o', g4, g5, g6⟩ := hk _ o (v.map f) (.inr rfl) h2 u2 v2
  exact ⟨i', o', v, g1, g4, g2, g5, g3, g6⟩

theorem inv_put {f : List K → List K} {m : SamplerState K} {s : SampleSet K} {obj : ObjRef K} (hI : SamplerInv f m)
    (hobj : ∀ a, obj = .ref a → ∀ d ∈ m.discs, a ≠ d.1 ∧ a ≠ d.2) : SamplerInv f (m.put s obj) := by
  intro d hd
  rw [put_discs] at hd
  refine pairedNow_of (hI d hd) fun k t v hk ht hu hv => ⟨t, ?_, hu, hv⟩
  rw [put_get (List.getElem?_eq_some_iff.mp ht).1, ht]
  intro e
  rcases hk with rfl | rfl
  · exact (hobj _ e d hd).1 rfl
  · exact (hobj _ e d hd).2 rfl

theorem inv_step {S : SamplerModel K} (hsize : 0 < S.size) {f e : List K → List K} {j : List K → List (List K)}
    (hm : RowWise S.model S.ee S.jac f e j) (hf : ∀ row, (f row).length = S.outDim) {m m' : SamplerState K}
    {c : SamplerCall K} (hI : SamplerInv f m) (hc : Careful m c) (h : m.exec S c = .ok m') : SamplerInv f m' := by
  cases c with
  | newSet s =>
    cases (pure_eq_ok _ _).mp h
    exact fun d hd => pairedNow_of (hI d hd) fun k t v hk ht hu hv =>
      ⟨t, (List.getElem?_append_left (List.getElem?_eq_some_iff.mp ht).1).trans ht, hu, hv⟩
  | random st rv obj n g =>
    obtain ⟨rfl, hobj⟩ := hc
    simp only [SamplerState.exec, bind_eq_ok] at h
    obtain ⟨x, -, s, hs, h⟩ := h
    cases (pure_eq_ok _ _).mp h
    exact inv_put hI hobj
  | lhs obj cube g =>
    obtain ⟨rfl, hobj⟩ := hc
    simp only [SamplerState.exec, bind_eq_ok] at h
    obtain ⟨x, -, s, hs, h⟩ := h
    cases (pure_eq_ok _ _).mp h
    exact inv_put hI hobj
  | regular obj nums =>
    simp only [SamplerState.exec, bind_eq_ok] at h
    obtain ⟨x, -, s, hs, h⟩ := h
    cases (pure_eq_ok _ _).mp h
    exact inv_put hI (by simp)
  | compute input g =>
    obtain rfl : g = true := hc
    obtain ⟨a, s, d, i, o, ha, hs, hd, hi, ho, rfl⟩ := compute_inv h
    obtain ⟨i', o', v, hi', ho', ui, uo, vi, vo, hw⟩ := compute_pairs hsize hm hf hd
    rw [hi] at hi'
    cases hi'
    rw [ho] at ho'
    cases ho'
    have la : a < m.heap.length := (List.getElem?_eq_some_iff.mp hs).1
    have hnew : (⟨m.heap.set a i ++ [o], some a, m.discs ++ [(a, m.heap.length)]⟩ : SamplerState K).heap[a]? = some i := by
      simp only []
      rw [List.getElem?_append_left (by simpa using la)]
      simp [la]
    intro d' hd'
    rcases List.mem_append.mp hd' with hd' | hd'
    · refine pairedNow_of (hI d' hd') fun k t w hk ht hu hv => ?_
      by_cases hka : a = k
      · subst hka
        rw [hs] at ht
        cases ht
        exact ⟨i, hnew, ui, by rw [vi, hw hu w hv]⟩
      · refine ⟨t, ?_, hu, hv⟩
        have hlt := (List.getElem?_eq_some_iff.mp ht).1
        simp only []
        rw [List.getElem?_append_left (by simpa using hlt), List.getElem?_set_ne hka, ht]
    · rw [List.mem_singleton.mp hd']
      refine ⟨i, o, v, hnew, ?_, ui, uo, vi, vo⟩
      simp
  | localToGlobal =>
    cases (pure_eq_ok _ _).mp h
    intro d hd
    rw [globalize_discs] at hd
    refine pairedNow_of (hI d hd) fun k t w hk ht hu hv => ?_
    have hlt : k < m.globalizeCurrent.globalizeDisc.heap.length := by
      rw [globalize_length]; exact (List.getElem?_eq_some_iff.mp ht).1
    have := globalize_get m k (fun s => UpToDate s ∧ s.glob.values = some w)
      (fun s h => ⟨(upToDate_gather s h.1).1, (upToDate_gather s h.1).2 w h.2⟩)
      (fun s hs => by rw [ht] at hs; cases hs; exact ⟨hu, hv⟩) _ (List.getElem?_eq_getElem hlt)
    exact ⟨_, List.getElem?_eq_getElem hlt, this.1, this.2⟩

/-- C106: for a model that works row by row, after any history of calls of a new sampler that does not sample again
into a set of a discretization and gathers what it computes, every discretization that was returned pairs each
input with its output. -/
theorem C106_pairs {S : SamplerModel K} (hsize : 0 < S.size) {f e : List K → List K} {j : List K → List (List K)}
    (hm : RowWise S.model S.ee S.jac f e j) (hf : ∀ row, (f row).length = S.outDim) {m : SamplerState K}
    {cs : List (SamplerCall K)} (h : History S Careful {} cs m) : ∀ d ∈ m.discs, PairedBy f m d := by
  have : ∀ {m m' : SamplerState K} {cs : List (SamplerCall K)}, History S Careful m cs m' → SamplerInv f m →
      SamplerInv f m' := by
    intro m m' cs h
    induction h with
    | nil m => exact id
    | cons hP h1 _ ih => exact fun hI => ih (inv_step hsize hm hf hI hP h1)
  intro d hd
  obtain ⟨i, o, v, h1, h2, -, -, h3, h4⟩ := this h (by simp [SamplerInv]) d hd
  exact ⟨i, o, v, h1, h2, h3, h4⟩

/-- C106: the model is evaluated at the set that is given, and else at the set that was sampled or evaluated last: the
new discretization consists of this set and a new one. -/
theorem C106_uses {S : SamplerModel K} {m m1 m2 : SamplerState K} {c : SamplerCall K} {g : Bool}
    (h1 : m.exec S c = .ok m1) :
    (∀ a, m1.exec S (.compute (some a) g) = .ok m2 →
      m2.discs = m1.discs ++ [(a, m1.heap.length)] ∧ m2.current = some a) ∧
    (m1.exec S (.compute none g) = .ok m2 →
      ∃ a, m2.discs = m1.discs ++ [(a, m1.heap.length)] ∧ LastSet m a c) := by
  have hput : ∀ (s : SampleSet K) (obj : ObjRef K) (a : Nat), (m.put s obj).current = some a →
      (∀ b, obj = .ref b → a = b) ∧ ((∀ b, obj ≠ .ref b) → a = m.heap.length) := by
    intro s obj a h
    cases obj with
    | ref b =>
      cases h
      exact ⟨fun b' e => by cases e; rfl, fun h => absurd rfl (h _)⟩
    | _ => cases h; exact ⟨by simp, fun _ => rfl⟩
  constructor
  · intro a h
    obtain ⟨b, s, d, i, o, hb, -, -, -, -, rfl⟩ := compute_inv h
    cases hb
    exact ⟨rfl, rfl⟩
  · intro h
    obtain ⟨a, s, d, i, o, ha, -, -, -, -, rfl⟩ := compute_inv h
    simp only [Option.none_or] at ha
    refine ⟨a, rfl, ?_⟩
    cases c with
    | newSet s => cases (pure_eq_ok _ _).mp h1; exact ha
    | random st rv obj n g =>
      simp only [SamplerState.exec, bind_eq_ok] at h1
      obtain ⟨x, -, s, -, h1⟩ := h1
      cases (pure_eq_ok _ _).mp h1
      exact hput _ _ _ ha
    | lhs obj cube g =>
      simp only [SamplerState.exec, bind_eq_ok] at h1
      obtain ⟨x, -, s, -, h1⟩ := h1
      cases (pure_eq_ok _ _).mp h1
      exact hput _ _ _ ha
    | regular obj nums =>
      simp only [SamplerState.exec, bind_eq_ok] at h1
      obtain ⟨x, -, s, -, h1⟩ := h1
      cases (pure_eq_ok _ _).mp h1
      exact (hput _ _ _ ha).2 (by simp)
    | compute input g =>
      obtain ⟨b, s, d, i, o, hb, -, -, -, -, rfl⟩ := compute_inv h1
      cases ha
      cases input with
      | none => exact .inr ⟨rfl, by simpa using hb⟩
      | some x => exact .inl (by simpa using hb)
    | localToGlobal =>
      cases (pure_eq_ok _ _).mp h1
      have : m.globalizeCurrent.globalizeDisc.current = m.current := by
        unfold SamplerState.globalizeDisc SamplerState.globalizeCurrent
        cases hc : m.current <;> cases m.discs.getLast? <;> simp [SamplerState.globalizeAt, hc] <;> split <;> simp_all
      rw [this] at ha
      exact ha

/-- C106, negation: sampling into the set of a discretization replaces its inputs, the outputs stay. -/
theorem C106_negation_reuse {S : SamplerModel K} {m m' : SamplerState K} {st : Stats K} {rv : RvArg K} {n : Nat}
    {d : Nat × Nat} (hne : d.1 ≠ d.2) (h2 : d.2 < m.heap.length)
    (h : m.exec S (.random st rv (.ref d.1) n true) = .ok m') :
    m'.heap[d.2]? = m.heap[d.2]? ∧ ∃ s s', m.heap[d.1]? = some s ∧
      randomSampleSet st S.size rv (.set s) n true = .ok s' ∧ m'.heap[d.1]? = some s' := by
  simp only [SamplerState.exec, SamplerState.resolve, bind_eq_ok] at h
  obtain ⟨x, ⟨s, hs, hx⟩, s', hs', h⟩ := h
  cases (pure_eq_ok _ _).mp hx
  cases (pure_eq_ok _ _).mp h
  have hs := (getIdx_eq_ok _ _ _).mp hs
  refine ⟨put_get h2 (by simpa using hne), s, s', hs, hs', ?_⟩
  simp [SamplerState.put, (List.getElem?_eq_some_iff.mp hs).1]

/-! ## C107 -/

section

/-- The model maps a vector of parameters to a vector of `dim` outputs. -/
def Spec.TakesVectors (lb : RefArray K → Except Err (RefReply K)) (dim : Nat) (f : List K → List K) : Prop :=
  ∀ x, lb (.vec x) = .ok (.array (.vec (f x))) ∧ (f x).length = dim

/-- The documented interface: arrays of shape (N, ndim) are mapped to arrays of shape (N, mdim), row by row; another
shape makes the model raise. -/
def Spec.Documented (lb : RefArray K → Except Err (RefReply K)) (dim : Nat) (f : List K → List K) (e : Err) : Prop :=
  (∀ m, lb (.rows m) = .ok (.array (.rows (m.map f)))) ∧ (∀ x, (f x).length = dim) ∧ ∀ x, lb (.vec x) = .error e

open Spec

/-- C107: for a model that also accepts vectors, the reference value of the outputs is the output for the reference
value of the inputs. -/
theorem C107_mapped {lb : RefArray K → Except Err (RefReply K)} {dim : Nat} {f : List K → List K}
    (h : TakesVectors lb dim f) (lam : List K) : mapReference lb dim (some lam) = .ok (some (f lam)) := by
  obtain ⟨h1, h2⟩ := h lam
  simp only [mapReference, tryReference, h1, ok_bind, setReference, h2, if_true]
  rfl

/-- C107: a value that is stored is one the model returned for the reference value, of the dimension of the outputs. -/
theorem C107_sound {lb : RefArray K → Except Err (RefReply K)} {dim : Nat} {lam : Option (List K)} {v : List K}
    (h : mapReference lb dim lam = .ok (some v)) :
    v.length = dim ∧ ∃ x, lam = some x ∧
      (lb (.vec x) = .ok (.array (.vec v)) ∨ lb (.rows [x]) = .ok (.array (.vec v))) := by
  have key : ∀ x, tryReference lb dim x = .ok (some v) → v.length = dim ∧ lb x = .ok (.array (.vec v)) := by
    intro x h
    simp only [tryReference, bind_eq_ok] at h
    obtain ⟨q, hq, w, hw, h⟩ := h
    cases (pure_eq_ok _ _).mp h
    unfold setReference at hw
    split at hw
    · rename_i v'
      split at hw
      · rename_i hl
        cases hw
        exact ⟨hl, hq⟩
      · cases hw
    · cases hw
    · cases hw
  have hor : ∀ {α : Type} {x y : Except Err α} {a : α}, onValueError x y = .ok a → x = .ok a ∨ y = .ok a := by
    intro α x y a h
    unfold onValueError at h
    split at h
    · exact .inr h
    · exact .inl h
  cases lam with
  | none => cases (pure_eq_ok _ _).mp h
  | some x =>
    rcases hor h with h | h
    · exact ⟨(key _ h).1, x, rfl, .inl (key _ h).2⟩
    · rcases hor h with h | h
      · exact ⟨(key _ h).1, x, rfl, .inr (key _ h).2⟩
      · cases (pure_eq_ok _ _).mp h

/-- C107: a model with one output that returns one number for each row is repeated on the reshaped value; without a
reference value nothing is done; a model that raises `ValueError` both times leaves the reference value empty. -/
theorem C107_second {lb : RefArray K → Except Err (RefReply K)} {dim : Nat} {lam : List K} {y : K} :
    (lb (.vec lam) = .error .valueError → lb (.rows [lam]) = .ok (.array (.vec [y])) →
      mapReference lb 1 (some lam) = .ok (some [y])) ∧
    mapReference lb dim none = .ok none ∧
    (lb (.vec lam) = .error .valueError → lb (.rows [lam]) = .error .valueError →
      mapReference lb dim (some lam) = .ok none) := by
  refine ⟨fun h1 h2 => ?_, rfl, fun h1 h2 => ?_⟩
  · simp only [mapReference, tryReference, h1, h2, ok_bind, error_bind, onValueError, setReference]
    rfl
  · simp only [mapReference, tryReference, h1, h2, ok_bind, error_bind, onValueError]
    rfl

/-- C107, negation: a model with the documented interface that does not accept vectors makes the call raise, whatever it
raises for a vector (`IndexError` for `x[:, 0]`): the second attempt gives an array of shape (1, mdim), which is not
accepted. -/
theorem C107_negation_documented {lb : RefArray K → Except Err (RefReply K)} {dim : Nat} {f : List K → List K} {e : Err}
    (h : Documented lb dim f e) (lam : List K) : ∃ e', mapReference lb dim (some lam) = .error e' ∧
      (e = .valueError → e' = .dimNotMatching) ∧ (e ≠ .valueError → e' = e) := by
  obtain ⟨h1, -, h3⟩ := h
  by_cases he : e = .valueError
  · subst he
    refine ⟨.dimNotMatching, ?_, fun _ => rfl, fun h => absurd rfl h⟩
    simp only [mapReference, tryReference, h1, h3, ok_bind, error_bind, onValueError, setReference]
  · refine ⟨e, ?_, fun h => absurd h he, fun _ => rfl⟩
    simp only [mapReference, tryReference, h1, h3, ok_bind, error_bind, onValueError]
    split
    · rename_i h; cases h; exact absurd rfl he
    · rfl

/-- C107, negation: a model that returns error estimates or Jacobians (a tuple) makes the call raise for every reference
value. -/
theorem C107_negation_tuple {lb : RefArray K → Except Err (RefReply K)} {dim : Nat} {lam : List K}
    (h : lb (.vec lam) = .ok .tuple) : mapReference lb dim (some lam) = .error .attributeError := by
  simp only [mapReference, tryReference, h, ok_bind, error_bind, onValueError, setReference]

end

end

/-! ### Examples -/

namespace Ex

def smpModel : SamplerModel ℚ where
  size := 2
  model := fun _ rows => .array (rows.map fun r => [r.sum * 2])
  outDim := 1
  ee := false
  jac := false

/-- A generator. -/
def smpStats (x : ℚ) : Stats ℚ where
  rvs := fun rank _ _ n => .ok ((List.range n).map fun k => x + rank + k)
  interval := fun _ => .ok (0, 1)

def smpCalls : List (SamplerCall ℚ) :=
  [.random (smpStats 1) (.str "uniform") (.dim 1) 3 true, .compute none true,
   .random (smpStats 5) (.str "uniform") (.dim 1) 2 true, .compute none true, .compute (some 0) true, .localToGlobal]

theorem smp_rowWise : Spec.RowWise smpModel.model smpModel.ee smpModel.jac (fun r => [r.sum * 2]) id (fun _ => []) :=
  fun _ _ => ⟨none, none, rfl, by simp [smpModel], by simp [smpModel]⟩

/-- Hypotheses of `C106_pairs` and `C106_frame`. -/
example : ((({} : SamplerState ℚ).run smpModel smpCalls).toOption.map fun m =>
    (m.discs, m.heap.map fun s => s.glob.values)) =
    some ([(0, 1), (2, 3), (0, 4)], [some [[1], [2], [2]], some [[2], [4], [4]], some [[5], [6]], some [[10], [12]],
      some [[2], [4], [4]]]) := by
  decide +kernel

/-- The calls are careful in every state. -/
example : ∃ m, Spec.History smpModel Spec.Careful {} smpCalls m := by
  have h : ∃ m, ({} : SamplerState ℚ).run smpModel smpCalls = .ok m := by
    cases h : ({} : SamplerState ℚ).run smpModel smpCalls with
    | ok m => exact ⟨m, rfl⟩
    | error e =>
      have : (({} : SamplerState ℚ).run smpModel smpCalls).toOption.isSome = true := by decide +kernel
      rw [h] at this
      cases this
  obtain ⟨m, hm⟩ := h
  refine ⟨m, ?_⟩
  have : ∀ (cs : List (SamplerCall ℚ)) (m0 m : SamplerState ℚ), (∀ c ∈ cs, ∀ m1, Spec.Careful m1 c) →
      Spec.History smpModel (fun _ _ => True) m0 cs m → Spec.History smpModel Spec.Careful m0 cs m := by
    intro cs m0 m hall h
    clear hm
    induction h with
    | nil m => exact .nil _
    | cons _ h1 _ ih =>
      exact .cons (hall _ List.mem_cons_self _) h1 (ih fun c hc => hall c (List.mem_cons_of_mem _ hc))
  refine this _ _ _ ?_ (run_history hm)
  intro c hc m1
  simp only [smpCalls, List.mem_cons, List.not_mem_nil, or_false] at hc
  rcases hc with rfl | rfl | rfl | rfl | rfl | rfl <;> simp [Spec.Careful]

/-- C106, negation: the sampler samples again into the set it was given; the first discretization, which had three
pairs, has now two inputs and three outputs. -/
theorem C106_negation_reused : ((({} : SamplerState ℚ).run smpModel
    [.newSet { dim := 1 }, .random (smpStats 1) (.str "uniform") (.ref 0) 3 true, .compute none true,
     .random (smpStats 5) (.str "uniform") (.ref 0) 2 true]).toOption.map fun m =>
    (m.discs, m.heap.map fun s => s.glob.values)) =
    some ([(0, 1)], [some [[5], [6]], some [[2], [4], [4]]]) := by
  decide +kernel

/-- C106, negation: a second evaluation with `globalize=False` takes the inputs from the first discretization. -/
theorem C106_negation_globalize : ((({} : SamplerState ℚ).run smpModel
    [.random (smpStats 1) (.str "uniform") (.dim 1) 3 true, .compute none true, .compute none false]).toOption.map
      fun m => (m.discs[0]?, m.heap.map fun s => s.glob.values)) =
    some (some (0, 1), [none, some [[2], [4], [4]], none]) := by
  decide +kernel

/-- Hypotheses of `C107_mapped`: the sum of the parameters. -/
def sumModel : RefArray ℚ → Except Err (RefReply ℚ)
  | .vec x => .ok (.array (.vec [x.sum]))
  | .rows m => .ok (.array (.rows (m.map fun r => [r.sum])))

example : Spec.TakesVectors sumModel 1 (fun x => [x.sum]) := fun _ => ⟨rfl, rfl⟩

/-- Hypotheses of `C107_negation_documented`: `np.sum(x[:, :], axis=1)`, for which a vector is an error. -/
def rowModel : RefArray ℚ → Except Err (RefReply ℚ)
  | .vec _ => .error .indexError
  | .rows m => .ok (.array (.rows (m.map fun r => [r.sum])))

example : Spec.Documented rowModel 1 (fun x => [x.sum]) .indexError := ⟨fun _ => rfl, fun _ => rfl, fun _ => rfl⟩

end Ex

end BET
