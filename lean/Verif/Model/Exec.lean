/-
  Execution outcomes and loops used by all models of C++ code.
  This file models no particular file of /repo: it fixes the meaning of the C++ constructs that the
  other model files transcribe (`for (unsigned i=0; i<n; i++) body`, reads/writes of Eigen/std vectors).
-/
namespace Verif

/-- Abnormal outcomes of a C++ call.
  * `ub`: undefined behaviour (out-of-bounds access, use of an uninitialised or dangling value);
  * `assertFail`: a `libmesh_assert*` fails (debug builds only; in release builds this is `ub`);
  * `error`: `libmesh_error()`, `libmesh_error_msg`, `libmesh_not_implemented` or an exception. -/
inductive Err where
  | ub | assertFail | error
deriving DecidableEq, Repr

/-- Result of running a piece of C++ code. -/
abbrev Exec (α : Type _) := Except Err α

/-- `for (i=0; i<n; i++) s = body i s` without abnormal exits. -/
def loop {σ : Type _} (n : Nat) (body : Nat → σ → σ) (s : σ) : σ :=
  match n with
  | 0 => s
  | n + 1 => body n (loop n body s)

/-- `for (i=0; i<n; i++) s = body i s` where the body may end abnormally. -/
def loopE {σ : Type _} (n : Nat) (body : Nat → σ → Exec σ) (s : σ) : Exec σ :=
  match n with
  | 0 => .ok s
  | n + 1 => do
      let s' ← loopE n body s
      body n s'

/-- An Eigen / libMesh / std vector: a size and the stored values (values at indices `≥ size` are
meaningless; the accessors below never expose them). -/
structure Vec (K : Type _) where
  size : Nat
  get : Nat → K

/-- A dense matrix. -/
structure Mat (K : Type _) where
  rows : Nat
  cols : Nat
  get : Nat → Nat → K

namespace Vec
variable {K : Type _}

/-- `v(i)` as an rvalue. -/
def read (v : Vec K) (i : Nat) : Exec K :=
  if i < v.size then .ok (v.get i) else .error .ub

/-- `v(i) = x`. -/
def write (v : Vec K) (i : Nat) (x : K) : Exec (Vec K) :=
  if i < v.size then .ok { v with get := fun j => if j = i then x else v.get j } else .error .ub

/-- `v(i) += x`. -/
def addAt [Add K] (v : Vec K) (i : Nat) (x : K) : Exec (Vec K) := do
  let y ← v.read i
  v.write i (y + x)

/-- `v.setZero()` (keeps the size). -/
def setZero [Zero K] (v : Vec K) : Vec K := { v with get := fun _ => 0 }

end Vec

namespace Mat
variable {K : Type _}

/-- `m(i,j)` as an rvalue. -/
def read (m : Mat K) (i j : Nat) : Exec K :=
  if i < m.rows ∧ j < m.cols then .ok (m.get i j) else .error .ub

/-- `m(i,j) = x`. -/
def write (m : Mat K) (i j : Nat) (x : K) : Exec (Mat K) :=
  if i < m.rows ∧ j < m.cols then
    .ok { m with get := fun a b => if a = i ∧ b = j then x else m.get a b }
  else .error .ub

/-- `m(i,j) += x`. -/
def addAt [Add K] (m : Mat K) (i j : Nat) (x : K) : Exec (Mat K) := do
  let y ← m.read i j
  m.write i j (y + x)

/-- `m.setZero()` (keeps the shape). -/
def setZero [Zero K] (m : Mat K) : Mat K := { m with get := fun _ _ => 0 }

end Mat

/-- `libmesh_assert(c)`. -/
def assert (c : Prop) [Decidable c] : Exec Unit :=
  if c then .ok () else .error .assertFail

end Verif
