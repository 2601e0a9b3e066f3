/-!
# Outcomes

The C++ code either returns, throws one of the standard exceptions, or runs into undefined
behaviour.  The three cases are kept apart everywhere in the model.
-/

namespace F2C

/-- The standard exceptions thrown by the modelled code
(`std::invalid_argument`, `std::length_error`, `std::out_of_range`, `std::runtime_error`). -/
inductive Exn
  | invalidArgument
  | lengthError
  | outOfRange
  | runtimeError
  deriving DecidableEq, Repr

/-- Result of running a piece of C++ code: a value, an exception or undefined behaviour. -/
inductive Outcome (α : Type) where
  | ok (a : α)
  | throw (e : Exn)
  | ub (why : String)
  deriving DecidableEq, Repr

namespace Outcome

variable {α β : Type}

/-- Sequencing: exceptions and undefined behaviour end the computation. -/
def bind (o : Outcome α) (f : α → Outcome β) : Outcome β :=
  match o with
  | ok a => f a
  | throw e => throw e
  | ub w => ub w

instance : Monad Outcome where
  pure := ok
  bind := bind

/-- Apply a function to a normal result. -/
def map (f : α → β) : Outcome α → Outcome β
  | ok a => ok (f a)
  | throw e => throw e
  | ub w => ub w

/-- The computation returned normally. -/
def isOk : Outcome α → Bool
  | ok _ => true
  | _ => false

/-- The computation ran into undefined behaviour. -/
def isUb : Outcome α → Bool
  | ub _ => true
  | _ => false

@[simp] theorem ok_bind (a : α) (f : α → Outcome β) : (ok a >>= f) = f a := rfl
@[simp] theorem throw_bind (e : Exn) (f : α → Outcome β) :
    ((throw e : Outcome α) >>= f) = throw e := rfl
@[simp] theorem ub_bind (w : String) (f : α → Outcome β) :
    ((ub w : Outcome α) >>= f) = ub w := rfl
@[simp] theorem pure_eq (a : α) : (pure a : Outcome α) = ok a := rfl
@[simp] theorem map_ok (f : α → β) (a : α) : f <$> (ok a) = ok (f a) := rfl
@[simp] theorem isUb_ub (w : String) : (ub w : Outcome α).isUb = true := rfl
@[simp] theorem isUb_ok (a : α) : (ok a).isUb = false := rfl
@[simp] theorem isUb_throw (e : Exn) : (throw e : Outcome α).isUb = false := rfl
@[simp] theorem isOk_ok (a : α) : (ok a).isOk = true := rfl

end Outcome
end F2C
