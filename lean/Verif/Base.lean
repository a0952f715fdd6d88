/-
Shallow embedding of the Go code: functions over a mutable state which may panic.
-/
namespace Flate

/-- Ways in which a modelled Go function may fail to return. -/
inductive Panic where
  /-- `assert.Assertf` / `assert.Raisef` failed -/
  | assert (msg : String)
  /-- index or slice bounds out of range -/
  | bounds
  /-- artefact of the model: a loop ran out of fuel (proved not to occur) -/
  | fuel
  deriving DecidableEq, Repr

/-- A Go function operating on a mutable receiver of type `σ` and returning an `α`. -/
def Go (σ α : Type) : Type := σ → Except Panic (α × σ)

namespace Go

variable {σ α β : Type}

instance : Monad (Go σ) where
  pure a := fun s => .ok (a, s)
  bind x f := fun s => match x s with
    | .ok (a, s') => f a s'
    | .error e => .error e

def get : Go σ σ := fun s => .ok (s, s)
def set (s : σ) : Go σ Unit := fun _ => .ok ((), s)
def modify (f : σ → σ) : Go σ Unit := fun s => .ok ((), f s)
def panic (p : Panic) : Go σ α := fun _ => .error p
/-- `assert.Assertf(cond, ...)` -/
def assert (c : Bool) (msg : String) : Go σ Unit := fun s => if c then .ok ((), s) else .error (.assert msg)

@[simp] theorem pure_apply (a : α) (s : σ) : (pure a : Go σ α) s = .ok (a, s) := rfl
theorem bind_apply (x : Go σ α) (f : α → Go σ β) (s : σ) : (x >>= f) s = match x s with
    | .ok (a, s') => f a s'
    | .error e => .error e := rfl
@[simp] theorem get_apply (s : σ) : (get : Go σ σ) s = .ok (s, s) := rfl
@[simp] theorem set_apply (s s' : σ) : (set s' : Go σ Unit) s = .ok ((), s') := rfl
@[simp] theorem modify_apply (f : σ → σ) (s : σ) : (modify f : Go σ Unit) s = .ok ((), f s) := rfl
@[simp] theorem panic_apply (p : Panic) (s : σ) : (panic p : Go σ α) s = .error p := rfl
theorem assert_apply (c : Bool) (m : String) (s : σ) :
    (assert c m : Go σ Unit) s = if c then .ok ((), s) else .error (.assert m) := rfl
@[simp] theorem assert_true (m : String) (s : σ) : (assert true m : Go σ Unit) s = .ok ((), s) := rfl
@[simp] theorem assert_false (m : String) (s : σ) :
    (assert false m : Go σ Unit) s = .error (.assert m) := rfl

theorem bind_ok {x : Go σ α} {f : α → Go σ β} {s s' : σ} {a : α} (h : x s = .ok (a, s')) :
    (x >>= f) s = f a s' := by rw [bind_apply, h]
theorem bind_error {x : Go σ α} {f : α → Go σ β} {s : σ} {e : Panic} (h : x s = .error e) :
    (x >>= f) s = .error e := by rw [bind_apply, h]

theorem bind_eq_ok {x : Go σ α} {f : α → Go σ β} {s s2 : σ} {b : β} :
    (x >>= f) s = .ok (b, s2) ↔ ∃ a s1, x s = .ok (a, s1) ∧ f a s1 = .ok (b, s2) := by
  rw [bind_apply]
  constructor
  · intro h
    cases hx : x s with
    | error e => rw [hx] at h; simp at h
    | ok r => obtain ⟨a, s1⟩ := r; rw [hx] at h; exact ⟨a, s1, rfl, h⟩
  · rintro ⟨a, s1, hx, hf⟩; rw [hx]; exact hf

theorem bind_eq_error {x : Go σ α} {f : α → Go σ β} {s : σ} {e : Panic} :
    (x >>= f) s = .error e ↔ x s = .error e ∨ ∃ a s1, x s = .ok (a, s1) ∧ f a s1 = .error e := by
  rw [bind_apply]
  constructor
  · intro h
    cases hx : x s with
    | error e' => rw [hx] at h; simp at h; exact Or.inl (by rw [h])
    | ok r => obtain ⟨a, s1⟩ := r; rw [hx] at h; exact Or.inr ⟨a, s1, rfl, h⟩
  · rintro (hx | ⟨a, s1, hx, hf⟩)
    · rw [hx]
    · rw [hx]; exact hf

@[simp] theorem pure_bind (a : α) (f : α → Go σ β) : (pure a >>= f : Go σ β) = f a := rfl
theorem bind_assoc {γ : Type} (x : Go σ α) (f : α → Go σ β) (g : β → Go σ γ) :
    (x >>= f) >>= g = x >>= fun a => f a >>= g := by
  funext s
  simp only [bind_apply]
  cases x s with
  | error e => rfl
  | ok r => rfl
@[simp] theorem bind_pure (x : Go σ α) : (x >>= pure) = x := by
  funext s
  simp only [bind_apply]
  cases x s with
  | error e => rfl
  | ok r => rfl

instance : LawfulMonad (Go σ) := LawfulMonad.mk'
  (id_map := fun x => by
    funext s
    show (x >>= fun a => pure (id a)) s = x s
    exact congrFun (bind_pure x) s)
  (pure_bind := fun _ _ => rfl)
  (bind_assoc := fun x f g => bind_assoc x f g)

end Go
end Flate
