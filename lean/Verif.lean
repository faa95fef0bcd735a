import Verif.Vec.Model
import Verif.Vec.Props
import Verif.Frame.Model
import Verif.Frame.Props
import Verif.Segment.Model
import Verif.Segment.Props
import Verif.BBox.Model
import Verif.BBox.Props
import Verif.BBox.Dist
import Verif.Lists.Model
import Verif.Lists.Props
import Verif.Polygon.Model
import Verif.Polygon.Props
import Verif.Polygon.Belongs
import Verif.Nurbs.Model
import Verif.Nurbs.Basis
import Verif.Nurbs.Curve
import Verif.Nurbs.InsertModel
import Verif.Nurbs.Boehm
import Verif.Nurbs.Insert
import Verif.Nurbs.Reparam
import Verif.Nurbs.CurveModel
import Verif.Nurbs.KnotLists
import Verif.Nurbs.CurveProps
import Verif.Nurbs.CurveOps
import Verif.Nurbs.Split
import Verif.Nurbs.HelpersModel
import Verif.Nurbs.Helpers
import Verif.Mesh.Model
import Verif.Mesh.Props
import Verif.Stl.Model
import Verif.Stl.Props
import Verif.Step.ExportModel
import Verif.Step.ExportProps
import Verif.Step.ImportModel
import Verif.Step.ImportProps
import Verif.Step.OrderProps
import Verif.Step.SplitModel
import Verif.Step.SplitProps
import Verif.Step.RegexModel
import Verif.Step.RegexProps
import Verif.Voxel.Model
import Verif.Voxel.FloodProps
import Verif.Voxel.GridModel
import Verif.Voxel.GridProps
import Verif.Voxel.FillProps
import Verif.Voxel.AddressProps
import Verif.Voxel.OctreeModel
import Verif.Voxel.OctreeProps
import Verif.Voxel.OctreeBool
import Verif.Voxel.SurfaceModel
import Verif.Voxel.SurfaceProps
import Verif.Voxel.TriangleProps
import Verif.Wire.Model
import Verif.Wire.OrderProps
import Verif.Wire.WireProps
import Verif.Angle.Model
import Verif.Angle.Props
import Verif.Angle.EulerProps
import Verif.Arc.Model
import Verif.Arc.Props
import Verif.Arc.BelongsProps
import Verif.Fem.Model
import Verif.Fem.Props
import Verif.Fem.GroupProps
import Verif.Grid.Model
import Verif.Grid.Props
import Verif.Intersect.Model
import Verif.Intersect.PlaneProps
import Verif.Intersect.LineProps
import Verif.Intersect.CircleProps
import Verif.Surface.Model
import Verif.Surface.Props
import Verif.Surface.MoreProps
import Verif.Nurbs.DerivModel
import Verif.Nurbs.Deriv
import Verif.Nurbs.DerivProps
import Verif.Nurbs.CurveFrame
import Verif.Solid.Model
import Verif.Solid.BlockProps
import Verif.Solid.CylProps
import Verif.Solid.CylOps
import Verif.Solid.SphereProps
import Verif.Solid.VolumeProps
import Verif.Fillet.Model
import Verif.Fillet.ArcProps
import Verif.Fillet.Arc3Props
import Verif.Fillet.ChainProps
import Verif.Fillet.RadiiProps
import Verif.Fillet.AdaptProps
import Verif.Fillet.OffsetProps
import Verif.Hull.Model
import Verif.Hull.AngleLemmas
import Verif.Hull.HullProps
import Verif.Hull.ConvexProps
import Verif.Hull.HullCounter
import Verif.Hull.PolyProps
import Verif.Hull.OffsetProps
import Verif.Conic.ParabolaProps
import Verif.Conic.ParabolaLineProps
import Verif.Conic.HyperbolaProps
import Verif.Conic.ConicArcProps
import Verif.Conic.TrimProps
import Verif.Conic.CircleLineProps
import Verif.Conic.CircleProps
import Verif.Arc.Arc3Props
import Verif.Arc.BoxModel
import Verif.Arc.BoxProps
import Verif.BBox.CornerProps
import Verif.Fillet.IndexProps
import Verif.Wire.ContourProps
import Verif.Intersect.CircleZProps
import Verif.Tri.Model
import Verif.Tri.AreaProps
import Verif.Tri.SubdivideProps
import Verif.Tri.PointsProps
import Verif.Tri.AttrProps
import Verif.Shell.Model
import Verif.Shell.VolumeProps
import Verif.Shell.MeshDataProps
import Verif.Shell.ObjectProps
import Verif.Fit.Rolle
import Verif.Fit.Whitney
import Verif.Fit.Model
import Verif.Fit.ParamProps
import Verif.Fit.InterpProps
import Verif.Fit.ApproxProps
import Verif.Fit.SurfProps
import Verif.Scene.Model
import Verif.Scene.PlaceProps
import Verif.Scene.BoxProps
import Verif.Gmsh.Model
import Verif.Gmsh.ReadProps
import Verif.Gmsh.VtkProps
import Verif.Gmsh.EntityProps
import Verif.Geo.Model
import Verif.Geo.FileProps
import Verif.Geo.DrawProps
import Verif.Geo.OutlineProps
import Verif.Profile.Model
import Verif.Profile.GreenProps
import Verif.Profile.AreaProps
import Verif.Profile.CentreProps
import Verif.Profile.MomentProps
import Verif.Profile.MeasureProps
import Verif.Profile.SurfaceProps
import Verif.Voxel.VoxelizeModel
import Verif.Voxel.PixelProps
import Verif.Voxel.FilledProps
import Verif.Voxel.VoxelizeProps
import Verif.Voxel.OctreeTriangles
import Verif.Voxel.CombinationModel
import Verif.Voxel.CombinationProps
import Verif.Voxel.OverlapProps
import Verif.Voxel.MergeProps
import Verif.Step.GeoModel
import Verif.Step.GeoProps
import Verif.Step.EdgeProps
import Verif.Step.ContourProps
import Verif.Step.SurfaceProps
import Verif.Step.AliasProps
import Verif.Nurbs.KnotsOK
import Verif.Nurbs.SurfModel
import Verif.Nurbs.Decompose
import Verif.Nurbs.NetProps
import Verif.Nurbs.SurfInsert
import Verif.Nurbs.SurfSplit
import Verif.Nurbs.SurfDecompose
import Verif.Nurbs.SurfExtract
import Verif.Nurbs.Refine
import Verif.Nurbs.Merge
import Verif.Surface.SweptModel
import Verif.Surface.SweptProps
import Verif.Surface.SweptMore
import Verif.Surface.SweptSimplify
import Verif.Surface.SweptExtrusion
import Verif.Shared.Model
import Verif.Shared.Props
import Verif.Shared.Delete
import Verif.TriCircle.Model
import Verif.TriCircle.Props
import Verif.Mesh.MeasureModel
import Verif.Mesh.MeasureProps
import Verif.Wire.SplitModel
import Verif.Wire.FromEdgesProps
import Verif.Wire.SplitProps
import Verif.Wire.SortedProps
import Verif.Surface.SweptPeriod
import Verif.Wire.ContoursModel
import Verif.Wire.ContoursProps
import Verif.Hull.PredModel
import Verif.Hull.PredConvex
import Verif.Hull.PredProps
import Verif.Unwrap.Model
import Verif.Unwrap.Props
import Verif.Unwrap.Unwrap
import Verif.Unwrap.Multiples
import Verif.Unwrap.Arcs
import Verif.Iso.Model
import Verif.Iso.Props
import Verif.Iso.TorusProps
import Verif.Iso.SphereProps
import Verif.Shell.UnionModel
import Verif.Shell.UnionProps
import Verif.Shell.FaceProps
import Verif.Shell.MergeProps
import Verif.Motion.Model
import Verif.Motion.SpaceProps
import Verif.Motion.PlaneProps
import Verif.Motion.SplineProps
import Verif.Search.DiscProps
import Verif.Search.PointProps
import Verif.Search.SegProps
import Verif.Search.PairProps
import Verif.Search.GroupProps
import Verif.Topo.GraphProps
import Verif.Topo.OpenProps
import Verif.Near.OctProps
import Verif.Near.NearProps
import Verif.Near.PlaneProps
import Verif.Near.SegProps
import Verif.Arc.OffsetProps
import Verif.Wire.OffsetProps
import Verif.Surface.RevolutionProps
import Verif.Surface.ExtrusionProps
import Verif.Surface.CircleSweepProps
import Verif.Surface.ArcSweepProps
import Verif.Surface.ArcExtrusionProps
import Verif.Scene.AabbProps
import Verif.Arc.SegmentDistanceProps
