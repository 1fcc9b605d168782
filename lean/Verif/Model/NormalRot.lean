import Mathlib.Data.Complex.Basic
import Mathlib.Data.Fin.VecNotation
/-
  Model of src/elasticity/normal_rotation_mesh_function.cpp and src/elasticity/complex_normal_rotation_mesh_function.cpp: change of the surface normal of a flow mesh computed from the displacement of a structural mesh.

  libMesh's `MeshFunction::gradient` gives `gradients[i](j)`, the derivative of displacement component `i` along `x_j`; it is the argument `G i j` of the functions below.
-/
namespace Verif.NormalRot

/-- The vector `rot`, src/elasticity/normal_rotation_mesh_function.cpp:61-66 (same lines for the perturbation, 103-108). -/
def rot {K : Type} [Ring K] (G : Fin 3 → Fin 3 → K) : Fin 3 → K :=
  ![G 2 1 - G 1 2, G 0 2 - G 2 0, G 1 0 - G 0 1]

/-- `dn_rot` from `rot` and the normal, normal_rotation_mesh_function.cpp:69-71, 111-113; complex_normal_rotation_mesh_function.cpp:79-81, 129-131. -/
def turn {K : Type} [Ring K] (r n : Fin 3 → K) : Fin 3 → K :=
  ![r 1 * n 2 - r 2 * n 1, -(r 0 * n 2 - r 2 * n 0), r 0 * n 1 - r 1 * n 0]

/-- `NormalRotationMeshFunction::operator()` as a function of the displacement gradient at the point and of the normal, normal_rotation_mesh_function.cpp:34-72.  The time is not used. -/
def dnRot (G : Fin 3 → Fin 3 → ℝ) (n : Fin 3 → ℝ) : Fin 3 → ℝ := turn (rot G) n

/-- `NormalRotationMeshFunction::perturbation`, normal_rotation_mesh_function.cpp:76-114: the same for the gradient of the perturbed solution. -/
def dnRotPerturbation (dG : Fin 3 → Fin 3 → ℝ) (n : Fin 3 → ℝ) : Fin 3 → ℝ := turn (rot dG) n

/-- The complex vector `rot`, src/elasticity/complex_normal_rotation_mesh_function.cpp:68-76 (118-126). -/
def crot (Gre Gim : Fin 3 → Fin 3 → ℝ) : Fin 3 → ℂ :=
  ![⟨Gre 2 1 - Gre 1 2, Gim 2 1 - Gim 1 2⟩, ⟨Gre 0 2 - Gre 2 0, Gim 0 2 - Gim 2 0⟩, ⟨Gre 1 0 - Gre 0 1, Gim 1 0 - Gim 0 1⟩]

/-- `ComplexNormalRotationMeshFunction::operator()` and `perturbation`, complex_normal_rotation_mesh_function.cpp:34-132. -/
def cdnRot (Gre Gim : Fin 3 → Fin 3 → ℝ) (n : Fin 3 → ℝ) : Fin 3 → ℂ := turn (crot Gre Gim) fun i => (n i : ℂ)

/-- `ComplexMeshFieldFunction::operator()` and `perturbation` at one point, src/base/complex_mesh_field_function.cpp:166-212: the values of the two mesh functions as one complex vector (`libmesh_assert(v_re.size())`: a point outside
the mesh gives empty vectors; the imaginary vector must have as many entries). -/
def fieldValue (re im : List ℝ) : Option (List ℂ) := if re.length ≤ im.length then some (List.ofFn fun i : Fin re.length => ⟨re.getD i 0, im.getD i 0⟩) else none

end Verif.NormalRot
