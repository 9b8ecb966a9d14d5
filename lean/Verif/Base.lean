/-!
# Common outcome type

Go functions in the subject either return a value, return an `error`, or panic.
`Res` is that three-way outcome.
-/
namespace Verif

/-- Outcome of a Go call returning `(T, error)` (or just `T`): normal value, error, or panic.
Models the `(T, error)` convention used throughout /repo, e.g. inspect/inspect.go:194-207, and
`panic(...)` calls such as internal/intervals/intervals.go:22-24. The message text is kept only
for readability; no property depends on it. -/
inductive Res (α : Type) where
  | ok (a : α)
  | err (msg : String)
  | panic (msg : String)
deriving Repr, DecidableEq

namespace Res
variable {α β : Type}

/-- Sequencing: `if err != nil { return nil, err }` (inspect/inspect.go:86-89) and panic propagation. -/
def bind (x : Res α) (f : α → Res β) : Res β :=
  match x with
  | ok a => f a
  | err m => err m
  | panic m => panic m

instance : Monad Res where
  pure := ok
  bind := bind

@[simp] theorem pure_eq (a : α) : (pure a : Res α) = ok a := rfl
@[simp] theorem ok_bind (a : α) (f : α → Res β) : (ok a >>= f) = f a := rfl
@[simp] theorem err_bind (m : String) (f : α → Res β) : ((err m : Res α) >>= f) = err m := rfl
@[simp] theorem panic_bind (m : String) (f : α → Res β) : ((panic m : Res α) >>= f) = panic m := rfl

theorem bind_eq_ok {x : Res α} {f : α → Res β} {b : β} :
    (x >>= f) = ok b ↔ ∃ a, x = ok a ∧ f a = ok b := by
  cases x <;> simp

/-- Whether the outcome is a normal return. Used on the results of all functions that return `error`, e.g. inspect/inspect.go:13-23. -/
def isOk : Res α → Bool
  | ok _ => true
  | _ => false

/-- Whether the outcome is a returned error. As at inspect/inspect.go:18. -/
def isErr : Res α → Bool
  | err _ => true
  | _ => false

/-- Whether the outcome is a panic. As at gen/decl.go:188. -/
def isPanic : Res α → Bool
  | panic _ => true
  | _ => false

theorem isOk_iff {x : Res α} : x.isOk = true ↔ ∃ a, x = ok a := by cases x <;> simp [isOk]
theorem isErr_iff {x : Res α} : x.isErr = true ↔ ∃ m, x = err m := by cases x <;> simp [isErr]
theorem isPanic_iff {x : Res α} : x.isPanic = true ↔ ∃ m, x = panic m := by
  cases x <;> simp [isPanic]

end Res
end Verif
