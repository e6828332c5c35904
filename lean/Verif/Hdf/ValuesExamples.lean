import Verif.Hdf.Values
import Verif.Hdf.Examples
/-! A concrete case for the parameters of a loaded file. -/
namespace Vvflow.Hdf.Examples

/-- A file with a Reynolds number and without a Prandtl number. -/
def short : File ℚ := { old with attrs := [("re", .dbl (.fin 600))] }

/-- The previous simulation has other parameters; the number of the file and the default replace them. -/
example : (match load env { wing with re := .fin 1, pr := .fin 7 } short with
    | .ok s => some (s.re, s.pr, s.time)
    | _ => none) = some (.fin 600, 0, TTime.default) := by decide +kernel

example (s : Space Str ℚ) (h : load env { wing with re := .fin 1 } short = .ok s) := C56_values env _ short s h

/-- A body with a stiffness that is repaired and a density. -/
def heavy : File ℚ where
  attrs := []
  links := [("body00".toList, .dset { attrs := [("density", .dbl (.fin 3)),
    ("spring_const", .vec3 ⟨⟨.fin (-1), .fin 2⟩, .fin 0⟩)], rows := 1, cols := 4, data := [.fin 1, .fin 2, .fin 3, .fin 4] })]

example : (match load env wing heavy with
    | .ok s => s.bodies.map fun x => [x.2.density, x.2.kspring.r.x, x.2.kspring.r.y, x.2.kspring.o] ++
        x.2.segs.flatMap fun g => [g.corner.x, g.corner.y, g.g, g.gsum]
    | _ => []) = [[.fin 3, .pinf, .fin 2, .fin 0, .fin 1, .fin 2, .fin 3, .fin 4]] := by decide +kernel

example (s : Space Str ℚ) (h : load env wing heavy = .ok s) (x : Str × Body Str ℚ) (hx : x ∈ s.bodies) :=
  C56_bodies env wing heavy s h x hx

end Vvflow.Hdf.Examples
