/-!
# Basic vocabulary of the model

Bytes, byte strings, and the outcome type of every modelled C++ operation.
-/
namespace Ssp

/-- A C++ `char`.  Only equality of chars and the value of ASCII digits matter in ssp, so the
signedness of `char` is irrelevant and an unsigned byte is used. -/
abbrev Byte := UInt8

/-- A byte string (`std::string`, the contents of a `char*` range, or a whole heap block). -/
abbrev Bytes := List Byte

/-- The bytes of an ASCII string literal. -/
def bs (s : String) : Bytes := s.toList.map (fun c => UInt8.ofNat c.toNat)

/-- The string terminator. -/
abbrev NUL : Byte := 0
/-- Line feed. -/
abbrev LF : Byte := 10
/-- Carriage return. -/
abbrev CR : Byte := 13

/-- Outcome of running a C++ operation on a state `σ`:
* `ok a s`     - returned `a`, new state `s`;
* `exc m s`    - threw `ss::exception{m}` leaving the state `s` behind (exception.hpp:11-21);
* `ub`         - undefined behaviour (access outside an allocation, null or dangling pointer);
* `nofuel`     - the loop bound of the *model* was exhausted (never happens: proved). -/
inductive Res (σ α : Type) where
  | ok (a : α) (s : σ)
  | exc (m : Bytes) (s : σ)
  | ub
  | nofuel
  deriving DecidableEq, Repr

/-- A way to show, by evaluation, that a call ends normally with a given property. -/
theorem Res.ok_of {σ α : Type} {r : Res σ α} {P : α → σ → Prop} [∀ a s, Decidable (P a s)]
    (h : (match r with | .ok a s => decide (P a s) | _ => false) = true) : ∃ a s, r = .ok a s ∧ P a s := by
  cases r with
  | ok a s => exact ⟨a, s, rfl, of_decide_eq_true h⟩
  | exc _ _ => cases h
  | ub => cases h
  | nofuel => cases h

/-- The same for a call that throws. -/
theorem Res.exc_of {σ α : Type} {r : Res σ α} {m : Bytes} (h : (match r with | .exc m' _ => decide (m' = m) | _ => false) = true) :
    ∃ s, r = .exc m s := by
  cases r with
  | exc m' s => have := of_decide_eq_true h; subst this; exact ⟨s, rfl⟩
  | ok _ _ => cases h
  | ub => cases h
  | nofuel => cases h

/-- Sequencing of outcomes. -/
def Res.bind {σ α β : Type} (r : Res σ α) (f : α → σ → Res σ β) : Res σ β :=
  match r with
  | .ok a s => f a s
  | .exc e s => .exc e s
  | .ub => .ub
  | .nofuel => .nofuel

/-- A C++ operation on an object of type `σ`. -/
def M (σ α : Type) := σ → Res σ α

namespace M
variable {σ α β : Type}

@[inline] def run (m : M σ α) (s : σ) : Res σ α := m s

@[inline] protected def pure (a : α) : M σ α := fun s => .ok a s

@[inline] protected def bind (m : M σ α) (f : α → M σ β) : M σ β := fun s =>
  match m s with
  | .ok a s' => f a s'
  | .exc e s' => .exc e s'
  | .ub => .ub
  | .nofuel => .nofuel

instance : Monad (M σ) where
  pure := M.pure
  bind := M.bind

/-- read the object -/
def get : M σ σ := fun s => .ok s s
/-- assign members of the object -/
def modify (f : σ → σ) : M σ Unit := fun s => .ok () (f s)
/-- `throw ss::exception{m}` -/
def throw (m : Bytes) : M σ α := fun s => .exc m s
/-- undefined behaviour -/
def ub : M σ α := fun _ => .ub
/-- loop bound of the model exhausted -/
def nofuel : M σ α := fun _ => .nofuel

@[simp] theorem pure_apply (a : α) (s : σ) : (pure a : M σ α) s = .ok a s := rfl
@[simp] theorem get_apply (s : σ) : (get : M σ σ) s = .ok s s := rfl
@[simp] theorem modify_apply (f : σ → σ) (s : σ) : (modify f : M σ Unit) s = .ok () (f s) := rfl
@[simp] theorem throw_apply (m : Bytes) (s : σ) : (throw m : M σ α) s = .exc m s := rfl
@[simp] theorem ub_apply (s : σ) : (ub : M σ α) s = .ub := rfl
@[simp] theorem nofuel_apply (s : σ) : (nofuel : M σ α) s = .nofuel := rfl

theorem bind_apply (m : M σ α) (f : α → M σ β) (s : σ) :
    (m >>= f) s = match m s with
      | .ok a s' => f a s'
      | .exc e s' => .exc e s'
      | .ub => .ub
      | .nofuel => .nofuel := rfl

theorem bind_eq (m : M σ α) (f : α → M σ β) (s : σ) : (m >>= f) s = (m s).bind f := rfl

theorem bind_of_ok {m : M σ α} {f : α → M σ β} {s s' : σ} {a : α} (h : m s = .ok a s') :
    (m >>= f) s = f a s' := by simp [bind_apply, h]
theorem bind_of_exc {m : M σ α} {f : α → M σ β} {s s' : σ} {e : Bytes} (h : m s = .exc e s') :
    (m >>= f) s = .exc e s' := by simp [bind_apply, h]

@[simp] theorem pure_bind' (a : α) (f : α → M σ β) (s : σ) : ((pure a : M σ α) >>= f) s = f a s := rfl
@[simp] theorem get_bind (f : σ → M σ β) (s : σ) : ((get : M σ σ) >>= f) s = f s s := rfl
@[simp] theorem modify_bind (g : σ → σ) (f : Unit → M σ β) (s : σ) :
    ((modify g : M σ Unit) >>= f) s = f () (g s) := rfl
@[simp] theorem throw_bind (m : Bytes) (f : α → M σ β) (s : σ) :
    ((throw m : M σ α) >>= f) s = .exc m s := rfl

theorem bind_assoc_apply {γ : Type} (m : M σ α) (f : α → M σ β) (g : β → M σ γ) (s : σ) :
    ((m >>= f) >>= g) s = (m >>= fun a => f a >>= g) s := by
  simp only [bind_apply]; cases m s <;> rfl

end M

/-- The three error handling modes (setup.hpp:168,186,250-253,286-287): no option, `string_error`,
`throw_on_error`. -/
inductive ErrMode where
  | bool
  | string
  | throw
  deriving DecidableEq, Repr

/-- `error_` of splitter, converter and parser: `std::string` with string_error (`msg`), `bool`
otherwise (`flag`) - splitter.hpp:26,472, converter.hpp:107,491, parser.hpp:22,1057. -/
structure ErrSt where
  msg : Bytes := []
  flag : Bool := false
  deriving DecidableEq, Repr

/-- `valid()`: splitter.hpp:31-39, converter.hpp:170-178, parser.hpp:78-86. -/
def ErrSt.valid (m : ErrMode) (e : ErrSt) : Bool :=
  match m with
  | .string => e.msg.isEmpty
  | .throw => true
  | .bool => !e.flag

/-- `clear_error()`: converter.hpp:219-225, parser.hpp:585-591; splitter.hpp:122-129 does the same
except that it leaves the (then unused) bool alone under throw_on_error. -/
def ErrSt.clear (m : ErrMode) (e : ErrSt) : ErrSt :=
  match m with
  | .string => { e with msg := [] }
  | .throw => e
  | .bool => { e with flag := false }

/-- The non-throwing part of every `handle_error_*`: store the message or set the flag. -/
def ErrSt.set (m : ErrMode) (msg : Bytes) (e : ErrSt) : ErrSt :=
  match m with
  | .string => { e with msg := msg }
  | .throw => e
  | .bool => { e with flag := true }

/-- Decimal digits of a number, most significant first, with fuel. -/
def decAux : Nat → Nat → Bytes → Bytes
  | 0, _, acc => acc
  | f + 1, n, acc =>
    let acc' := UInt8.ofNat (48 + n % 10) :: acc
    if n / 10 = 0 then acc' else decAux f (n / 10) acc'

/-- `std::to_string` of an unsigned number. -/
def dec (n : Nat) : Bytes := decAux (n + 1) n []

end Ssp
