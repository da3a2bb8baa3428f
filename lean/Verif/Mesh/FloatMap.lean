import Verif.Mesh.FloatEdge
import Verif.Mesh.Map2D

/-!
# `map2D` in double precision

`/repo/src/pymech/meshtools.py`, 1801–1856, with `edge_mid` in double precision. The transformation is an arbitrary function of doubles without side
effects that does not raise exceptions.
-/

set_option autoImplicit false

namespace Pymech

/-- `map2D`, meshtools.py:1801–1856: the input mesh afterwards, and the result. -/
def map2DF (L : Libm) (T : F64 → F64 → F64 × F64) (curvature bcurv : Bool) (M : HexaData F64) : Py (HexaData F64 × HexaData F64) :=
  map2DBy (edgeMidF L) T curvature bcurv M

end Pymech
