import Verif.F32.Basic
import Verif.F32.Fmod
import Verif.F32.Int
import Verif.F32.Mono
import Verif.F32.NotLt
import Verif.F32.Ops
import Verif.F32.Pat
import Verif.Lemmas.Antialias
import Verif.Lemmas.AntialiasInk
import Verif.Lemmas.AntialiasOutset
import Verif.Lemmas.AsMeshes
import Verif.Lemmas.AsMeshesFinish
import Verif.Lemmas.AsMeshesPack
import Verif.Lemmas.BrushTipExtruder
import Verif.Lemmas.BrushTipExtrusion
import Verif.Lemmas.BrushTipMove
import Verif.Lemmas.BrushTipShape
import Verif.Lemmas.Circle
import Verif.Lemmas.ClockwiseFan
import Verif.Lemmas.ColorSpace
import Verif.Lemmas.Constrain
import Verif.Lemmas.ConvexHull
import Verif.Lemmas.CreateDrawable
import Verif.Lemmas.DerivativeAll
import Verif.Lemmas.DerivativeCalculator
import Verif.Lemmas.DerivativeClosed
import Verif.Lemmas.DerivativeLargest
import Verif.Lemmas.DerivativeMargins
import Verif.Lemmas.DerivativeMesh
import Verif.Lemmas.DerivativeRuns
import Verif.Lemmas.DerivativeSuffix
import Verif.Lemmas.DerivativeTotal
import Verif.Lemmas.DerivativeUpdate
import Verif.Lemmas.Drawable
import Verif.Lemmas.EasingSteps
import Verif.Lemmas.EasingTable
import Verif.Lemmas.ExtrusionCaps
import Verif.Lemmas.ExtrusionPoints
import Verif.Lemmas.ExtrusionTurns
import Verif.Lemmas.FlipCorrection
import Verif.Lemmas.Geometry
import Verif.Lemmas.GeometryHistory
import Verif.Lemmas.GeometryNext
import Verif.Lemmas.GeometryStrip
import Verif.Lemmas.GeometryUpdate
import Verif.Lemmas.InProgressStroke
import Verif.Lemmas.Interpolation
import Verif.Lemmas.LegacyIntersection
import Verif.Lemmas.Mesh
import Verif.Lemmas.MeshIntersects
import Verif.Lemmas.MeshPacking
import Verif.Lemmas.MeshPackingBits
import Verif.Lemmas.MutableMeshView
import Verif.Lemmas.PartialOutline
import Verif.Lemmas.Polyline
import Verif.Lemmas.Quantise
import Verif.Lemmas.Requantise
import Verif.Lemmas.RoundedPolygon
import Verif.Lemmas.Shader
import Verif.Lemmas.ShaderBytes
import Verif.Lemmas.ShaderCache
import Verif.Lemmas.ShaderDecode
import Verif.Lemmas.ShaderFormat
import Verif.Lemmas.ShaderStored
import Verif.Lemmas.ShapeBuilder
import Verif.Lemmas.SpatialQuery
import Verif.Lemmas.StaticRTree
import Verif.Lemmas.StrokeBounds
import Verif.Lemmas.StrokeCovers
import Verif.Lemmas.StrokeCoversRevert
import Verif.Lemmas.StrokeDry
import Verif.Lemmas.StrokeGeometry
import Verif.Lemmas.StrokeInputBatch
import Verif.Lemmas.StrokeInputBatchOps
import Verif.Lemmas.StrokeInputModeler
import Verif.Lemmas.StrokeRegion
import Verif.Lemmas.StrokeStrip
import Verif.Lemmas.StrokeUpdate
import Verif.Lemmas.StrokeVertex
import Verif.Lemmas.Tessellator
import Verif.Lemmas.Triangulation
import Verif.Lemmas.TriangulationMarks
import Verif.Lemmas.VecF32
import Verif.Model.AffineTransform
import Verif.Model.Angle
import Verif.Model.Antialias
import Verif.Model.AsMeshes
import Verif.Model.Brush
import Verif.Model.BrushBehavior
import Verif.Model.BrushTipExtruder
import Verif.Model.BrushTipExtrusion
import Verif.Model.BrushTipModeler
import Verif.Model.BrushTipShape
import Verif.Model.Circle
import Verif.Model.Color
import Verif.Model.ColorSpace
import Verif.Model.Constrain
import Verif.Model.ConvexHull
import Verif.Model.CreateDrawable
import Verif.Model.DerivativeCalculator
import Verif.Model.Distance
import Verif.Model.Drawable
import Verif.Model.Duration
import Verif.Model.Easing
import Verif.Model.EasingTable
import Verif.Model.ExtrusionPoints
import Verif.Model.FlipCorrection
import Verif.Model.Geometry
import Verif.Model.GeometryDerivatives
import Verif.Model.InProgressStroke
import Verif.Model.Interpolation
import Verif.Model.LegacyIntersection
import Verif.Model.Mesh
import Verif.Model.MeshFormat
import Verif.Model.MeshIntersects
import Verif.Model.MeshPacking
import Verif.Model.MutableGroups
import Verif.Model.MutableMesh
import Verif.Model.MutableMeshView
import Verif.Model.PartialOutline
import Verif.Model.PartitionedMesh
import Verif.Model.PhysicalDistance
import Verif.Model.Polyline
import Verif.Model.Rect
import Verif.Model.RoundedPolygon
import Verif.Model.SegmentAlgorithms
import Verif.Model.Shader
import Verif.Model.ShaderCache
import Verif.Model.ShapeBuilder
import Verif.Model.Simplify
import Verif.Model.SpatialQuery
import Verif.Model.StaticRTree
import Verif.Model.Stroke
import Verif.Model.StrokeBounds
import Verif.Model.StrokeGeometry
import Verif.Model.StrokeInputBatch
import Verif.Model.StrokeInputModeler
import Verif.Model.StrokeOutline
import Verif.Model.StrokeShape
import Verif.Model.StrokeUpdate
import Verif.Model.StrokeVertex
import Verif.Model.Tessellator
import Verif.Model.Triangulation
import Verif.Model.Uri
import Verif.Model.VecF32
import Verif.Props.AffineTransform
import Verif.Props.Angle
import Verif.Props.Antialias
import Verif.Props.AsMeshes
import Verif.Props.Brush
import Verif.Props.BrushBehavior
import Verif.Props.BrushTipExtruder
import Verif.Props.BrushTipExtrusion
import Verif.Props.BrushTipExtrusionCases
import Verif.Props.BrushTipMove
import Verif.Props.BrushTipShape
import Verif.Props.Circle
import Verif.Props.Color
import Verif.Props.ColorShift
import Verif.Props.ColorSpace
import Verif.Props.Constrain
import Verif.Props.ConvexHull
import Verif.Props.Coverage
import Verif.Props.CoverageCases
import Verif.Props.CreateDrawable
import Verif.Props.Damping
import Verif.Props.DerivativeCalculator
import Verif.Props.Distance
import Verif.Props.Drawable
import Verif.Props.Duration
import Verif.Props.Easing
import Verif.Props.EasingTable
import Verif.Props.ExtrusionLoops
import Verif.Props.ExtrusionPoints
import Verif.Props.ExtrusionTurns
import Verif.Props.FlipCorrection
import Verif.Props.Geometry
import Verif.Props.GeometryDerivatives
import Verif.Props.GeometryHistory
import Verif.Props.InProgressStroke
import Verif.Props.Interpolation
import Verif.Props.LegacyIntersection
import Verif.Props.Mesh
import Verif.Props.MeshFormat
import Verif.Props.MeshIntersects
import Verif.Props.MeshPacking
import Verif.Props.MutableGroups
import Verif.Props.MutableMesh
import Verif.Props.MutableMeshView
import Verif.Props.OutOfRange
import Verif.Props.PartialOutline
import Verif.Props.Partition
import Verif.Props.PartitionedMesh
import Verif.Props.PhysicalDistance
import Verif.Props.Polyline
import Verif.Props.Rect
import Verif.Props.RoundedPolygon
import Verif.Props.SegmentAlgorithms
import Verif.Props.Shader
import Verif.Props.ShaderCache
import Verif.Props.ShaderExamples
import Verif.Props.ShapeBuilder
import Verif.Props.Simplify
import Verif.Props.SpatialMeshes
import Verif.Props.SpatialQuery
import Verif.Props.StaticRTree
import Verif.Props.Stroke
import Verif.Props.StrokeBounds
import Verif.Props.StrokeDry
import Verif.Props.StrokeGeometry
import Verif.Props.StrokeInputBatch
import Verif.Props.StrokeInputBatchValid
import Verif.Props.StrokeInputModeler
import Verif.Props.StrokeOutline
import Verif.Props.StrokeShape
import Verif.Props.StrokeUpdate
import Verif.Props.StrokeVertex
import Verif.Props.Tessellator
import Verif.Props.TipModeler
import Verif.Props.TipState
import Verif.Props.Triangulation
import Verif.Props.Uri
import Verif.Spec.Antialias
import Verif.Spec.AsMeshes
import Verif.Spec.Brush
import Verif.Spec.BrushBehavior
import Verif.Spec.BrushTipExtruder
import Verif.Spec.BrushTipExtrusion
import Verif.Spec.BrushTipShape
import Verif.Spec.Circle
import Verif.Spec.ColorShift
import Verif.Spec.ColorSpace
import Verif.Spec.Constrain
import Verif.Spec.ConvexHull
import Verif.Spec.CreateDrawable
import Verif.Spec.DerivativeCalculator
import Verif.Spec.Distance
import Verif.Spec.Drawable
import Verif.Spec.Easing
import Verif.Spec.EasingTable
import Verif.Spec.ExtrusionPoints
import Verif.Spec.FlipCorrection
import Verif.Spec.Geometry
import Verif.Spec.GeometryDerivatives
import Verif.Spec.GeometryHistory
import Verif.Spec.InProgressStroke
import Verif.Spec.Interpolation
import Verif.Spec.LegacyIntersection
import Verif.Spec.Mesh
import Verif.Spec.MeshFormat
import Verif.Spec.MeshIntersects
import Verif.Spec.MeshPacking
import Verif.Spec.MutableGroups
import Verif.Spec.MutableMesh
import Verif.Spec.MutableMeshView
import Verif.Spec.PartialOutline
import Verif.Spec.PartitionedMesh
import Verif.Spec.PhysicalDistance
import Verif.Spec.Polyline
import Verif.Spec.RoundedPolygon
import Verif.Spec.SegmentAlgorithms
import Verif.Spec.Shader
import Verif.Spec.ShaderCache
import Verif.Spec.ShapeBuilder
import Verif.Spec.Simplify
import Verif.Spec.SpatialQuery
import Verif.Spec.StaticRTree
import Verif.Spec.Stroke
import Verif.Spec.StrokeBounds
import Verif.Spec.StrokeDry
import Verif.Spec.StrokeGeometry
import Verif.Spec.StrokeInputBatch
import Verif.Spec.StrokeInputModeler
import Verif.Spec.StrokeUpdate
import Verif.Spec.Tessellator
import Verif.Spec.TipModeler
import Verif.Spec.TipState
import Verif.Spec.Triangulation
