import Verif.Props.Ids
import Verif.Props.MeshIds
import Verif.Props.ElementKey
import Verif.Props.Topology
import Verif.Props.Incidence
import Verif.Props.Queries
import Verif.Props.Iterators
import Verif.Props.SegNames
import Verif.Props.Segments
import Verif.Props.ViewQueries
import Verif.Props.Interface
import Verif.Props.Copy
import Verif.Props.Seeds
import Verif.Props.MeshCopy
import Verif.Props.UniqueVertex
import Verif.Props.Erase
import Verif.Props.Field
import Verif.Props.RefineTet
import Verif.Props.RefineConform
import Verif.Props.RefineTri
import Verif.Props.RefineMarks
import Verif.Props.Hyperplane
import Verif.Props.HyperRefine
import Verif.Props.RefineMesh
import Verif.Props.Vectors
import Verif.Props.Inclusion
import Verif.Props.Circumcenter
import Verif.Props.Volumes
import Verif.Props.Transform
import Verif.Props.MeshMeasure
import Verif.Props.CellSurface
import Verif.Props.SegmentSurface
import Verif.Props.SurfaceOrder
import Verif.Props.Orthogonalize
import Verif.Props.ClosestPoints
import Verif.Props.Coordinates
import Verif.Props.XmlTag
import Verif.Props.QuantityTransfer
import Verif.Props.Netgen
import Verif.Props.Vtk
import Verif.Props.VtkData
import Verif.Props.CopySeg
import Verif.Props.Angles
import Verif.Props.Distance
import Verif.Props.Voronoi
import Verif.Props.VoronoiSurface
import Verif.Props.VoronoiQuads
import Verif.Props.VoronoiQuadParts
import Verif.Props.VoronoiHexes
import Verif.Props.VoronoiHexParts
import Verif.Props.VoronoiTets
import Verif.Props.VoronoiTetsExample
import Verif.Props.VoronoiTetsViolated
import Verif.Props.RefineFacets
import Verif.Props.RefineEdges
import Verif.Props.SegmentHistory
import Verif.Props.MphtxtExample
import Verif.Props.EraseHandles
import Verif.Props.OpenDx
import Verif.Props.TetgenPoly
import Verif.Props.BndExample
import Verif.Props.Serialization
import Verif.Props.Neper
import Verif.Props.CopySegmentation
import Verif.Props.UncheckedAdd
import Verif.Props.VtkText
import Verif.Props.VtkReuse
import Verif.Props.VtkWriterReuse
import Verif.Props.Thin
import Verif.Props.Vmesh
import Verif.Props.Typelist
import Verif.Props.Typemap
import Verif.Props.MeshConfig
import Verif.Props.Polygons
import Verif.Props.CopyElements
import Verif.Props.Cubes
import Verif.Props.Ranges
import Verif.Props.SegInfo
import Verif.Props.Uniform
import Verif.Props.CellRefine
import Verif.Props.CellRefineTimes
import Verif.Props.UniformEuler
import Verif.Props.UniformTets
import Verif.Props.Handles
import Verif.Props.ClosestMesh
import Verif.Props.MeshSize
import Verif.Props.Normals
import Verif.Props.NormalsHex
import Verif.Props.NormalsQuad
import Verif.Props.StaticArray
import Verif.Props.NumberText
import Verif.Props.BndFlat
