import Verif.Model.SampleSet

set_option autoImplicit false

namespace BET

theorem bind_eq_ok {α β ε : Type} (x : Except ε α) (f : α → Except ε β) (b : β) :
    (x >>= f) = .ok b ↔ ∃ a, x = .ok a ∧ f a = .ok b := by
  cases x <;> simp [bind, Except.bind]

theorem pure_eq_ok {α ε : Type} (a b : α) : (pure a : Except ε α) = .ok b ↔ a = b := by
  simp [pure, Except.pure]

theorem throw_ne_ok {α ε : Type} (e : ε) (b : α) : (throw e : Except ε α) ≠ .ok b := by
  simp [throw, throwThe, MonadExceptOf.throw]

@[simp] theorem orErr_eq_ok {α : Type} (e : Err) (o : Option α) (a : α) :
    orErr e o = .ok a ↔ o = some a := by
  cases o <;> simp [orErr]

@[simp] theorem orErr_some {α : Type} (e : Err) (a : α) : orErr e (some a) = .ok a := rfl

@[simp] theorem orErr_none {α : Type} (e : Err) : orErr e (none : Option α) = .error e := rfl

@[simp] theorem ok_bind {α β ε : Type} (a : α) (f : α → Except ε β) :
    ((Except.ok a : Except ε α) >>= f) = f a := rfl

@[simp] theorem error_bind {α β ε : Type} (e : ε) (f : α → Except ε β) :
    ((Except.error e : Except ε α) >>= f) = .error e := rfl

@[simp] theorem pure_bind_ok {α β ε : Type} (a : α) (f : α → Except ε β) :
    ((pure a : Except ε α) >>= f) = f a := rfl

@[simp] theorem raiseIf_eq_ok {c : Prop} [Decidable c] {e : Err} {u : Unit} :
    raiseIf c e = .ok u ↔ ¬ c := by
  unfold raiseIf
  split <;> simp_all

theorem foldlM_ok_mem {α β ε : Type} (f : β → α → Except ε β) (l : List α) (b r : β)
    (h : l.foldlM f b = .ok r) : ∀ x ∈ l, ∃ b' r', f b' x = .ok r' := by
  induction l generalizing b with
  | nil => simp
  | cons a l ih =>
    rw [List.foldlM_cons, bind_eq_ok] at h
    obtain ⟨c, hc, h⟩ := h
    intro x hx
    rcases List.mem_cons.mp hx with rfl | hx
    · exact ⟨b, c, hc⟩
    · exact ih c h x hx

theorem mapM_ok_mem {α β ε : Type} (f : α → Except ε β) (l : List α) (r : List β)
    (h : l.mapM f = .ok r) : ∀ x ∈ l, ∃ y, f x = .ok y := by
  induction l generalizing r with
  | nil => simp
  | cons a l ih =>
    rw [List.mapM_cons, bind_eq_ok] at h
    obtain ⟨c, hc, h⟩ := h
    rw [bind_eq_ok] at h
    obtain ⟨cs, hcs, _⟩ := h
    intro x hx
    rcases List.mem_cons.mp hx with rfl | hx
    · exact ⟨c, hc⟩
    · exact ih cs hcs x hx

theorem mapM_ok {α β ε : Type} (f : α → Except ε β) (g : α → β) (l : List α)
    (h : ∀ x ∈ l, f x = .ok (g x)) : l.mapM f = .ok (l.map g) := by
  induction l with
  | nil => rfl
  | cons a l ih =>
    rw [List.mapM_cons, h a (by simp), ih (fun x hx => h x (by simp [hx]))]
    rfl

theorem mapM_eq_ok {α β ε : Type} (f : α → Except ε β) (l : List α) (r : List β) :
    l.mapM f = .ok r ↔ List.Forall₂ (fun x y => f x = .ok y) l r := by
  induction l generalizing r with
  | nil => simp [pure, Except.pure, eq_comm]
  | cons a l ih =>
    rw [List.mapM_cons, bind_eq_ok]
    constructor
    · rintro ⟨c, hc, h⟩
      rw [bind_eq_ok] at h
      obtain ⟨cs, hcs, h⟩ := h
      rw [pure_eq_ok] at h
      subst h
      exact .cons hc ((ih _).mp hcs)
    · intro h
      cases h with
      | cons hc ht =>
        refine ⟨_, hc, ?_⟩
        rw [(ih _).mpr ht]
        rfl

end BET
