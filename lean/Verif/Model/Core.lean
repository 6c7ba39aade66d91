/-!
Outcomes and loops.  Every model function that can throw or run into undefined behaviour returns one
of these outcomes; nothing is totalised with a default value.
-/

namespace CML

/-- The C++ exceptions the library throws (plus `badAlloc` from the allocator and `staticAssert` for
a program that is rejected at compile time).  Sources: `/repo/cml/vector/size_checking.h:17-51`,
`/repo/cml/matrix/size_checking.h` (exception classes), `cml_require` in
`/repo/cml/common/exception.h`. -/
inductive Err
  | vecIncompatible   -- incompatible_vector_size_error
  | vecMinimum        -- minimum_vector_size_error
  | vecSize           -- vector_size_error
  | vecRange          -- vector_size_range_error
  | matIncompatible   -- incompatible_matrix_size_error and the row/col/inner variants
  | matMinimum        -- minimum_matrix_size_error
  | matSize           -- matrix_size_error
  | nonSquare         -- non_square_matrix_error
  | quatSize          -- quaternion_size_error
  | invalidArgument   -- std::invalid_argument
  | badAlloc          -- std::bad_alloc from the allocator
  | staticAssert      -- compile-time rejection
  deriving DecidableEq, Repr

/-- Reasons for undefined behaviour. -/
inductive UB
  | dead        -- access to / release of memory that is not (or no longer) allocated, or via null
  | oob         -- access outside of an object
  | uninit      -- use of the value of an element that was never given a value
  | raw         -- assignment to / copy from storage that holds no object (non-trivial element type)
  | badFree     -- release with the wrong size
  | divZero     -- division by zero (exact arithmetic has no infinities)
  | overflow    -- result of `int` arithmetic that is not representable
  deriving DecidableEq, Repr

/-- Outcome of a computation that reads but does not modify the state. -/
inductive Res (α : Type u)
  | ok (a : α)
  | throw (e : Err)
  | ub (u : UB)
  deriving DecidableEq, Repr

/-- Outcome of a statement: the state is also observable after an exception. -/
inductive Out (σ : Type u)
  | ok (s : σ)
  | throw (e : Err) (s : σ)
  | ub (u : UB)
  deriving Repr

namespace Res

/-- Sequencing: C++ evaluation stops at an exception. -/
protected def bind (x : Res α) (f : α → Res β) : Res β :=
  match x with
  | ok a => f a
  | throw e => throw e
  | ub u => ub u

instance : Monad Res where
  pure := ok
  bind := Res.bind

@[simp] theorem ok_bind (a : α) (f : α → Res β) : (Res.ok a >>= f) = f a := rfl
@[simp] theorem throw_bind (e : Err) (f : α → Res β) : (Res.throw e >>= f) = Res.throw e := rfl
@[simp] theorem ub_bind (u : UB) (f : α → Res β) : (Res.ub u >>= f) = Res.ub u := rfl
@[simp] theorem pure_eq (a : α) : (pure a : Res α) = Res.ok a := rfl
@[simp] theorem ok_map (f : α → β) (a : α) : (f <$> Res.ok a) = Res.ok (f a) := rfl

/-- `cml_require(cond, exception, ...)`, `/repo/cml/common/exception.h`. -/
def require (c : Bool) (e : Err) : Res Unit := if c then ok () else throw e

/-- `for(int i = lo; i < lo + n; ++i) acc = body(i, acc)`. -/
def loop (body : Nat → σ → Res σ) : Nat → Nat → σ → Res σ
  | _, 0, s => ok s
  | lo, n + 1, s => (body lo s).bind fun s' => loop body (lo + 1) n s'

end Res

namespace Out

/-- Sequencing of statements. -/
def andThen (x : Out σ) (f : σ → Out σ) : Out σ :=
  match x with
  | ok s => f s
  | throw e s => throw e s
  | ub u => ub u

@[simp] theorem ok_andThen (s : σ) (f : σ → Out σ) : (Out.ok s).andThen f = f s := rfl
@[simp] theorem throw_andThen (e : Err) (s : σ) (f : σ → Out σ) :
    (Out.throw e s).andThen f = Out.throw e s := rfl
@[simp] theorem ub_andThen (u : UB) (f : σ → Out σ) : (Out.ub u : Out σ).andThen f = Out.ub u := rfl

/-- Use the value of a read in a statement executed in state `s`. -/
def withVal (r : Res α) (s : σ) (f : α → Out σ) : Out σ :=
  match r with
  | .ok a => f a
  | .throw e => throw e s
  | .ub u => ub u

@[simp] theorem withVal_ok (a : α) (s : σ) (f : α → Out σ) : withVal (.ok a) s f = f a := rfl
@[simp] theorem withVal_throw (e : Err) (s : σ) (f : α → Out σ) :
    withVal (.throw e : Res α) s f = throw e s := rfl
@[simp] theorem withVal_ub (u : UB) (s : σ) (f : α → Out σ) : withVal (.ub u : Res α) s f = ub u := rfl

/-- `for(int i = lo; i < lo + n; ++i) body(i)`. -/
def loop (body : Nat → σ → Out σ) : Nat → Nat → σ → Out σ
  | _, 0, s => ok s
  | lo, n + 1, s => (body lo s).andThen fun s' => loop body (lo + 1) n s'

end Out

/-- Loop rule for reading loops: an invariant that every iteration re-establishes holds at the
end. -/
theorem Res.loop_inv {σ : Type u} {body : Nat → σ → Res σ} (P : Nat → σ → Prop) {lo n : Nat} {s : σ}
    (h0 : P lo s)
    (hs : ∀ k s, lo ≤ k → k < lo + n → P k s → ∃ s', body k s = .ok s' ∧ P (k + 1) s') :
    ∃ s', Res.loop body lo n s = .ok s' ∧ P (lo + n) s' := by
  induction n generalizing lo s with
  | zero => exact ⟨s, rfl, h0⟩
  | succ n ih =>
    obtain ⟨s1, h1, hp⟩ := hs lo s (Nat.le_refl _) (by omega) h0
    obtain ⟨s2, h2, hp2⟩ := ih hp (fun k s hk hk' => hs k s (by omega) (by omega))
    refine ⟨s2, ?_, by rwa [show lo + 1 + n = lo + (n + 1) by omega] at hp2⟩
    simp only [Res.loop, h1, Res.bind, h2]

/-- Loop rule for statement loops. -/
theorem Out.loop_inv {σ : Type u} {body : Nat → σ → Out σ} (P : Nat → σ → Prop) {lo n : Nat} {s : σ}
    (h0 : P lo s)
    (hs : ∀ k s, lo ≤ k → k < lo + n → P k s → ∃ s', body k s = .ok s' ∧ P (k + 1) s') :
    ∃ s', Out.loop body lo n s = .ok s' ∧ P (lo + n) s' := by
  induction n generalizing lo s with
  | zero => exact ⟨s, rfl, h0⟩
  | succ n ih =>
    obtain ⟨s1, h1, hp⟩ := hs lo s (Nat.le_refl _) (by omega) h0
    obtain ⟨s2, h2, hp2⟩ := ih hp (fun k s hk hk' => hs k s (by omega) (by omega))
    refine ⟨s2, ?_, by rwa [show lo + 1 + n = lo + (n + 1) by omega] at hp2⟩
    simp only [Out.loop, h1, Out.andThen, h2]

end CML
