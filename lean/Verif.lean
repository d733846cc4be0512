import Verif.Props.Adjacent
import Verif.Props.Asymmetric
import Verif.Props.AsymmetricRounded
import Verif.Props.Boundary
import Verif.Props.Broken
import Verif.Props.Chamber
import Verif.Props.Checks
import Verif.Props.Complete
import Verif.Props.Convex
import Verif.Props.ConvexExact
import Verif.Props.Coplanar
import Verif.Props.Decide
import Verif.Props.DecidePlanar
import Verif.Props.DecideRounded
import Verif.Props.Hand
import Verif.Props.Hull
import Verif.Props.HullRounded
import Verif.Props.HullRoundedPlanar
import Verif.Props.Intersect
import Verif.Props.IntersectObj
import Verif.Props.Laws
import Verif.Props.LawsPlanar
import Verif.Props.LawsRounded
import Verif.Props.LawsRoundedPlanar
import Verif.Props.LegacyScalar
import Verif.Props.Machine
import Verif.Props.MachineIntersect
import Verif.Props.MachinePlanar
import Verif.Props.MachineVec
import Verif.Props.MachineWrong
import Verif.Props.Matrix
import Verif.Props.Measure
import Verif.Props.MeasureRounded
import Verif.Props.Numeral
import Verif.Props.Numerical
import Verif.Props.OnSurface
import Verif.Props.Outline
import Verif.Props.OutlineFails
import Verif.Props.OutlineRounded
import Verif.Props.Planar
import Verif.Props.PlanarHull
import Verif.Props.PlanarMeasure
import Verif.Props.PlanarMeasureRounded
import Verif.Props.Podatm
import Verif.Props.Position
import Verif.Props.Projection
import Verif.Props.Reciprocal
import Verif.Props.Returns
import Verif.Props.ReturnsPlanar
import Verif.Props.ReturnsTested
import Verif.Props.Rounding
import Verif.Props.RoundingLost
import Verif.Props.RoundingPlanar
import Verif.Props.Scalar
import Verif.Props.Similarity
import Verif.Props.SimplifyOutcome
import Verif.Props.Single
import Verif.Props.Sites
import Verif.Props.SitesRounded
import Verif.Props.Sort
import Verif.Props.Structure
import Verif.Props.Subtract
import Verif.Props.Surface
import Verif.Props.SurfaceNames
import Verif.Props.Symmetry
import Verif.Props.Triangles
import Verif.Props.Truncated
import Verif.Props.Unique
import Verif.Props.Vector
import Verif.Props.Vesta
import Verif.Props.Volume
import Verif.Props.Xyz
import Verif.Audit
