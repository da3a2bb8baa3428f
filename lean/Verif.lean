import Verif.Py
import Verif.Core.Conn
import Verif.Core.Lims
import Verif.Lemmas.Basic
import Verif.Lemmas.Merge
import Verif.Samples
import Verif.Props.Check
import Verif.Props.Lims
import Verif.Props.LimsTools
import Verif.Props.Conn
import Verif.Props.Merge
import Verif.Props.MergeKeep
import Verif.Mesh.Internal
import Verif.Mesh.Keep
import Verif.Mesh.Extrude
import Verif.Mesh.Box
import Verif.Props.Delete
import Verif.Props.Generate
import Verif.Props.GenerateFields
import Verif.Props.Box
import Verif.Props.BoxFloat
import Verif.Props.Rotate
import Verif.Props.Extrude
import Verif.Props.Keep
import Verif.Props.Elmap
import Verif.IO.Field
import Verif.Lemmas.Bytes
import Verif.Lemmas.Float
import Verif.Lemmas.Text
import Verif.Props.Header
import Verif.Props.Tag
import Verif.Lemmas.List
import Verif.Lemmas.Reader
import Verif.Spec.Field
import Verif.Lemmas.ReadFile
import Verif.Lemmas.WriteFile
import Verif.Lemmas.RoundTrip
import Verif.Lemmas.Print
import Verif.Lemmas.PrintShort
import Verif.Props.Field
import Verif.Props.FieldCut
import Verif.Props.FieldRead
import Verif.IO.Re2
import Verif.Spec.Re2
import Verif.Lemmas.Re2
import Verif.Lemmas.Re2Round
import Verif.Lemmas.Re2Foreign
import Verif.Props.Re2
import Verif.IO.ReaText
import Verif.IO.Rea
import Verif.IO.Newlines
import Verif.Spec.Rea
import Verif.Lemmas.ReaLine
import Verif.Lemmas.Rea
import Verif.Lemmas.ReaFile
import Verif.Lemmas.ReaRead
import Verif.Lemmas.ReaRound
import Verif.Props.Rea
import Verif.Props.ReaCut
import Verif.Props.ReaRewrite
import Verif.IO.Map
import Verif.Props.Map
import Verif.IO.Simson
import Verif.Lemmas.Simson
import Verif.Props.Simson
import Verif.Mesh.Edge
import Verif.Props.Edge
import Verif.Mesh.Map2D
import Verif.Mesh.Circle
import Verif.Props.Map2D
import Verif.Props.Refine
import Verif.Props.Circle
import Verif.Props.CircleGeom
import Verif.Mesh.Mid
import Verif.Props.Mid
import Verif.Props.MidGeom
import Verif.Props.MidCurv
import Verif.Props.ArcRound
import Verif.Props.MidLinks
import Verif.Mesh.Refine
import Verif.Props.ExtrudeRefine
import Verif.Suite.Vtk
import Verif.Lemmas.Loop
import Verif.Lemmas.Vtk
import Verif.Spec.Vtk
import Verif.Props.Vtk
import Verif.Suite.Dataset
import Verif.Props.Dataset
import Verif.Props.Regenerate
import Verif.Props.Stack
import Verif.IO.SimsonFft
import Verif.Props.Dns
import Verif.Props.DnsField
import Verif.Suite.VtkName
import Verif.Props.VtkName
import Verif.Props.Sphere
import Verif.Props.Re2Layout
import Verif.Props.Re2Read
import Verif.Props.ReaLayout
import Verif.Props.Newton
import Verif.Props.Numerals
import Verif.Props.Rewrite
import Verif.Props.Spacing
import Verif.Suite.Open
import Verif.Props.Open
import Verif.Props.Centroid
import Verif.Props.Chain
import Verif.Props.CircleValid
import Verif.Lemmas.CircleSep
import Verif.Props.CircleFits
import Verif.Props.CircleThin
import Verif.Props.RefineSub
import Verif.Props.RefineBlocks
import Verif.Props.RefineMid
import Verif.Props.RefineNear
import Verif.Props.RefineLinks
import Verif.Props.Re2Rewrite
import Verif.Lemmas.Lines
import Verif.Props.ReaForeign
import Verif.Lemmas.WordsU
import Verif.Lemmas.Round
import Verif.Props.Re2Cut
import Verif.Lemmas.ReaCrop
import Verif.Props.ReaCrop
import Verif.Props.ReaCropWritten
import Verif.Props.ReaNewlines
import Verif.Props.SimsonCut
import Verif.Props.SimsonRead
import Verif.Props.FieldCrop
import Verif.Props.RotateTools
import Verif.Props.Map2DComp
import Verif.Props.KeepTwice
import Verif.Core.FloatConn
import Verif.Props.FloatCheck
import Verif.Lemmas.FloatDist
import Verif.Props.FloatNear
import Verif.Props.FloatLibm
import Verif.Props.RotateFloat
import Verif.Mesh.FloatEdge
import Verif.Props.EdgeFloat
import Verif.Props.ArcFloat
import Verif.Props.LimsFloat
import Verif.Core.FloatMerge
import Verif.Lemmas.FloatMerge
import Verif.Props.MergeFloat
import Verif.Props.GenerateFloat
import Verif.Props.NewtonConv
import Verif.Mesh.FloatExtrude
import Verif.Props.ExtrudeFloat
import Verif.Mesh.FloatMap
import Verif.Props.MapFloat
import Verif.Mesh.FloatKeep
import Verif.Props.KeepFloat
import Verif.Mesh.FloatCircle
import Verif.Props.CircleFloat
import Verif.Props.SquareFloat
import Verif.Props.RingFloat
import Verif.Props.SphereFloat
