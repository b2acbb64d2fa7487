import Verif.Model.VtkText
import Verif.Model.CopySeg
import Mathlib.Data.List.Sort

/-!
The file of `vmesh_writer` (io/vmesh_writer.hpp): the name of the file with the mesh, and numbers of vertices and cells
of the mesh and its segments.
-/

namespace VG

variable {P N : Type}

/-- `cell_tag::name()`.  topology/simplex.hpp:62-68, topology/quadrilateral.hpp:33, topology/hexahedron.hpp:34. -/
def cellTagName : VtkTag → List Char
  | .line => "1-simplex".toList
  | .triangle => "2-simplex".toList
  | .tetrahedron => "3-simplex".toList
  | .quadrilateral => "quadrilateral".toList
  | .hexahedron => "hexahedron".toList

/-- A line `<name>value</name>` with `n` times `indent_` in front.  io/vmesh_writer.hpp:69-74, 79-82. -/
def vmeshField (n : Nat) (name : String) (value : List Char) : List Char :=
  List.replicate (2 * n) ' ' ++ "<".toList ++ name.toList ++ ">".toList ++ value ++ "</".toList ++ name.toList ++ ">\n".toList

/-- The lines of a segment; its name is not written but the empty string `empty_`.  io/vmesh_writer.hpp:76-84. -/
def vmeshSegment (s : SegMesh P N) (T : Topo) (id : Int) : List Char :=
  "    <segment>\n".toList ++
  vmeshField 3 "id" (intText id) ++
  vmeshField 3 "name" [] ++
  vmeshField 3 "vertices" (natText (s.st.view id.toNat 0).length) ++
  vmeshField 3 "cells" (natText (s.st.view id.toNat T.cellDim).length) ++
  "    </segment>\n".toList

/-- The file; `dim` is the number of coordinates, the segments are in a `std::map` in the order of their ids.
io/vmesh_writer.hpp:68-87, mesh/segmentation.hpp:859-864. -/
def vmeshText (tag : VtkTag) (dim : Nat) (s : SegMesh P N) (inputfile : List Char) : List Char :=
  "<mesh>\n".toList ++
  vmeshField 1 "file" inputfile ++
  vmeshField 1 "geomdim" (natText dim) ++
  vmeshField 1 "celltype" (cellTagName tag) ++
  vmeshField 1 "vertices" (natText s.st.mesh.verts.length) ++
  vmeshField 1 "cells" (natText (s.st.mesh.elems tag.topo.cellDim).length) ++
  vmeshField 1 "segments" (natText s.reg.segs.length) ++
  "  <segmentation>\n".toList ++
  ((s.reg.segs.map (·.1)).insertionSort (· ≤ ·)).flatMap (fun g => vmeshSegment s tag.topo g) ++
  "  </segmentation>\n".toList ++
  "</mesh>\n".toList

/-- The name of the file which is written: `rfind` gives `npos` if there is no dot, and `npos + 1` is 0.
io/vmesh_writer.hpp:61-66. -/
def vmeshFile (outputfile : List Char) : List Char :=
  if extension outputfile = "vmesh".toList then outputfile else outputfile ++ ".vmesh".toList

end VG
