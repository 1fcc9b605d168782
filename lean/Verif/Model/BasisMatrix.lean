import Verif.Model.Exec
/-
  Model of `MAST::BasisMatrix`, /repo/src/numerics/basis_matrix.h.
  Distributed `NumericVector`s are modelled by the global vector; `dot` is the (real) inner product.
-/
namespace Verif.Basis
variable {K : Type _}

/-- `m()`, basis_matrix.h:48-52. -/
def m (modes : List (Vec K)) : Exec Nat :=
  match modes with
  | [] => .error .assertFail
  | v :: _ => .ok v.size

/-- `modes[i]` with a bounds check. -/
def mode (modes : List (Vec K)) (i : Nat) : Exec (Vec K) :=
  match modes[i]? with
  | some v => .ok v
  | none => .error .ub

/-- `NumericVector::add(a, v)`: `dest += a*v` (libMesh; sizes must agree). -/
def axpy [Add K] [Mul K] (dest : Vec K) (a : K) (v : Vec K) : Exec (Vec K) := do
  assert (dest.size = v.size)
  return { dest with get := fun t => dest.get t + a * v.get t }

/-- `NumericVector::dot` (libMesh; sizes must agree). -/
def dot [Zero K] [Add K] [Mul K] (a b : Vec K) : Exec K := do
  assert (a.size = b.size)
  return loop a.size (fun t s => s + a.get t * b.get t) 0

/-- `vector_mult(dest, arg)`, basis_matrix.h:69-80. -/
def vectorMult [Zero K] [Add K] [Mul K] (modes : List (Vec K)) (dest arg : Vec K) :
    Exec (Vec K) := do
  assert (modes.length > 0)
  let mm ← m modes
  assert (mm = dest.size)
  assert (modes.length = arg.size)
  loopE modes.length (fun i dest => do
    let a ← arg.read i
    let v ← mode modes i
    axpy dest a v) dest.setZero

/-- `vector_mult_transpose(dest, arg)`, basis_matrix.h:99-111. -/
def vectorMultTranspose [Zero K] [Add K] [Mul K] (modes : List (Vec K)) (dest arg : Vec K) :
    Exec (Vec K) := do
  assert (modes.length > 0)
  let mm ← m modes
  assert (mm = arg.size)
  assert (modes.length = dest.size)
  loopE modes.length (fun i dest => do
    let v ← mode modes i
    let d ← dot arg v
    dest.write i d) { size := modes.length, get := fun _ => 0 }

end Verif.Basis
