/-!
Outcomes shared by the models.
-/

namespace Nanostl

universe u v

/-- Outcome of running a piece of C++: normal return with a value, a propagating `bad_alloc`
(carrying the state at the throw), or undefined behaviour. -/
inductive Out (σ : Type u) (β : Type v) where
  | ok (s : σ) (b : β)
  | exc (s : σ)
  | ub

/-- State transformers with the three outcomes. -/
def Act (σ : Type u) (β : Type v) := σ → Out σ β

namespace Act

variable {σ : Type u} {β γ : Type v}

@[inline] def pure (b : β) : Act σ β := fun s => .ok s b

@[inline] def bind (m : Act σ β) (f : β → Act σ γ) : Act σ γ := fun s =>
  match m s with
  | .ok s' b => f b s'
  | .exc s' => .exc s'
  | .ub => .ub

instance : Monad (Act σ) where
  pure := Act.pure
  bind := Act.bind

/-- Undefined behaviour. -/
def ub : Act σ β := fun _ => .ub

theorem pure_apply (b : β) (s : σ) : (Pure.pure b : Act σ β) s = .ok s b := rfl

theorem bind_apply (m : Act σ β) (f : β → Act σ γ) (s : σ) :
    (m >>= f) s = (match m s with
      | .ok s' b => f b s'
      | .exc s' => .exc s'
      | .ub => .ub) := rfl

theorem bind_ok {m : Act σ β} {f : β → Act σ γ} {s s' : σ} {b : β} (h : m s = .ok s' b) :
    (m >>= f) s = f b s' := by
  rw [bind_apply, h]

theorem bind_exc {m : Act σ β} {f : β → Act σ γ} {s s' : σ} (h : m s = .exc s') :
    (m >>= f) s = .exc s' := by
  rw [bind_apply, h]

theorem bind_ub {m : Act σ β} {f : β → Act σ γ} {s : σ} (h : m s = .ub) :
    (m >>= f) s = .ub := by
  rw [bind_apply, h]

end Act

end Nanostl
