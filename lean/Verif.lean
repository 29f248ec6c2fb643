import Verif.Lemmas.Agree
import Verif.Lemmas.Attr
import Verif.Lemmas.Backdrop
import Verif.Lemmas.BallErr
import Verif.Lemmas.BallPatch
import Verif.Lemmas.BallShadow
import Verif.Lemmas.Bloom
import Verif.Lemmas.Bounce
import Verif.Lemmas.BoxErr
import Verif.Lemmas.BoxPatch
import Verif.Lemmas.BoxSeen
import Verif.Lemmas.BoxWhere
import Verif.Lemmas.CamErr
import Verif.Lemmas.Cmp
import Verif.Lemmas.Crack
import Verif.Lemmas.DiskOutline
import Verif.Lemmas.Equidist
import Verif.Lemmas.ExtBox
import Verif.Lemmas.ExtCam
import Verif.Lemmas.ExtFace
import Verif.Lemmas.ExtHull
import Verif.Lemmas.ExtIs
import Verif.Lemmas.ExtMesh
import Verif.Lemmas.ExtNormals
import Verif.Lemmas.ExtQuadric
import Verif.Lemmas.ExtRange
import Verif.Lemmas.ExtShade
import Verif.Lemmas.FaceErr
import Verif.Lemmas.FaceHit
import Verif.Lemmas.FarLaw
import Verif.Lemmas.FloErr
import Verif.Lemmas.FloorBox
import Verif.Lemmas.FloorBuild
import Verif.Lemmas.FloorExample
import Verif.Lemmas.FloorPatch
import Verif.Lemmas.FloorSeen
import Verif.Lemmas.FloorShadow
import Verif.Lemmas.FloorShape
import Verif.Lemmas.FloorTest
import Verif.Lemmas.FloorUp
import Verif.Lemmas.FogGlow
import Verif.Lemmas.Geom
import Verif.Lemmas.GoM
import Verif.Lemmas.Golden
import Verif.Lemmas.Halton
import Verif.Lemmas.HaltonTool
import Verif.Lemmas.Image
import Verif.Lemmas.LampBlock
import Verif.Lemmas.LampErr
import Verif.Lemmas.LampLit
import Verif.Lemmas.LampShade
import Verif.Lemmas.LampShape
import Verif.Lemmas.LampSum
import Verif.Lemmas.LampWay
import Verif.Lemmas.Leaving
import Verif.Lemmas.Lit
import Verif.Lemmas.Load
import Verif.Lemmas.MapMat
import Verif.Lemmas.MeanErr
import Verif.Lemmas.Mesh
import Verif.Lemmas.MeshFile
import Verif.Lemmas.Mirror
import Verif.Lemmas.Moved
import Verif.Lemmas.MovedBuild
import Verif.Lemmas.Names
import Verif.Lemmas.Near
import Verif.Lemmas.Object
import Verif.Lemmas.Outlines
import Verif.Lemmas.Parts
import Verif.Lemmas.Passes
import Verif.Lemmas.Penumbra
import Verif.Lemmas.PlyFile
import Verif.Lemmas.Ppm
import Verif.Lemmas.Radiance
import Verif.Lemmas.Refract
import Verif.Lemmas.Residue
import Verif.Lemmas.Room
import Verif.Lemmas.RoomLight
import Verif.Lemmas.RoomRay
import Verif.Lemmas.RoomShade
import Verif.Lemmas.Rotation
import Verif.Lemmas.RoundAgain
import Verif.Lemmas.SampleErr
import Verif.Lemmas.Sampler
import Verif.Lemmas.Scaled
import Verif.Lemmas.Scene
import Verif.Lemmas.ScenePool
import Verif.Lemmas.ScreenErr
import Verif.Lemmas.Shift
import Verif.Lemmas.Shine
import Verif.Lemmas.Shot
import Verif.Lemmas.Showable
import Verif.Lemmas.SightErr
import Verif.Lemmas.Sim
import Verif.Lemmas.SkyLight
import Verif.Lemmas.Slab
import Verif.Lemmas.Spread
import Verif.Lemmas.Sturdy
import Verif.Lemmas.TameShare
import Verif.Lemmas.Text
import Verif.Lemmas.Through
import Verif.Lemmas.ThroughBall
import Verif.Lemmas.Tiles
import Verif.Lemmas.Transform
import Verif.Lemmas.Tree
import Verif.Lemmas.TurnErr
import Verif.Lemmas.UnitErr
import Verif.Lemmas.ViewAnswer
import Verif.Lemmas.ViewLeave
import Verif.Lemmas.ViewLit
import Verif.Lemmas.ViewPass
import Verif.Lemmas.Wavefront
import Verif.Lemmas.Workers
import Verif.Model.Animate
import Verif.Model.Api
import Verif.Model.BBox
import Verif.Model.Camera
import Verif.Model.Color
import Verif.Model.Construct
import Verif.Model.Ctx
import Verif.Model.Geom
import Verif.Model.Golden
import Verif.Model.HaltonTool
import Verif.Model.Image
import Verif.Model.Load
import Verif.Model.MeshFile
import Verif.Model.Object
import Verif.Model.PlyFile
import Verif.Model.Post
import Verif.Model.Ppm
import Verif.Model.Sampler
import Verif.Model.Scene
import Verif.Model.Sequence
import Verif.Model.Server
import Verif.Model.TestObjects
import Verif.Model.Text
import Verif.Model.Texture
import Verif.Model.Viewer
import Verif.Model.Watch
import Verif.Model.Wavefront
import Verif.Model.Workers
import Verif.Num.Ext
import Verif.Num.Flo
import Verif.Num.GoFloat
import Verif.Num.Real
import Verif.Props.C01_Tiles
import Verif.Props.C03_Schedule
import Verif.Props.C04_Progressive
import Verif.Props.C05_Mean
import Verif.Props.C06_Variance
import Verif.Props.C07_PixelCoords
import Verif.Props.C08_AntiAlias
import Verif.Props.C09_Double
import Verif.Props.C09_Halton
import Verif.Props.C100_Crack
import Verif.Props.C100_Floor
import Verif.Props.C100_FloorLit
import Verif.Props.C101_LitBox
import Verif.Props.C101_LitDouble
import Verif.Props.C102_View
import Verif.Props.C103_Picture
import Verif.Props.C104_HaltonTool
import Verif.Props.C105_Mirror
import Verif.Props.C106_Glass
import Verif.Props.C106_Globe
import Verif.Props.C106_Through
import Verif.Props.C107_Shade
import Verif.Props.C107_Tint
import Verif.Props.C108_Golden
import Verif.Props.C109_Convergence
import Verif.Props.C10_Sequence
import Verif.Props.C110_Sheet
import Verif.Props.C110_TestObjects
import Verif.Props.C111_Waves
import Verif.Props.C11_RayPool
import Verif.Props.C12_Recursion
import Verif.Props.C13_Nearest
import Verif.Props.C14_Shadows
import Verif.Props.C15_RayUnchanged
import Verif.Props.C16_Csg
import Verif.Props.C17_CsgHits
import Verif.Props.C17_Violated
import Verif.Props.C18_Bounds
import Verif.Props.C19_BoxTest
import Verif.Props.C20_HullBox
import Verif.Props.C21_TreeNearest
import Verif.Props.C22_TreeConstruction
import Verif.Props.C23_TreeBoxes
import Verif.Props.C24_Triangle
import Verif.Props.C25_Quadric
import Verif.Props.C26_Iso
import Verif.Props.C27_Affine
import Verif.Props.C28_Rotation
import Verif.Props.C29_Transformed
import Verif.Props.C30_TransformedBounds
import Verif.Props.C31_Placement
import Verif.Props.C32_Parametric
import Verif.Props.C33_Quads
import Verif.Props.C34_Obj
import Verif.Props.C35_Ply
import Verif.Props.C36_Ppm
import Verif.Props.C37_WriteErrors
import Verif.Props.C38_SRGB
import Verif.Props.C39_Images
import Verif.Props.C40_Bloom
import Verif.Props.C41_StarBloom
import Verif.Props.C42_Textures
import Verif.Props.C43_Procedural
import Verif.Props.C44_Reflection
import Verif.Props.C45_Refraction
import Verif.Props.C46_Sampling
import Verif.Props.C47_Cameras
import Verif.Props.C48_ExpFog
import Verif.Props.C49_Scatter
import Verif.Props.C50_Lights
import Verif.Props.C51_TransformedLights
import Verif.Props.C52_Server
import Verif.Props.C53_Viewer
import Verif.Props.C54_ViewerState
import Verif.Props.C55_Passes
import Verif.Props.C56_Defaults
import Verif.Props.C57_FileNames
import Verif.Props.C58_Deterministic
import Verif.Props.C59_Combinators
import Verif.Props.C60_Color
import Verif.Props.C61_IsoNormals
import Verif.Props.C62_Fisheye
import Verif.Props.C63_Energy
import Verif.Props.C64_Nonneg
import Verif.Props.C65_Matte
import Verif.Props.C66_LightsOnce
import Verif.Props.C67_Constructors
import Verif.Props.C67_Triangle
import Verif.Props.C68_Mesh
import Verif.Props.C69_Normals
import Verif.Props.C70_Frontmost
import Verif.Props.C71_Navigation
import Verif.Props.C72_Brightness
import Verif.Props.C73_Shape
import Verif.Props.C74_Order
import Verif.Props.C75_Moving
import Verif.Props.C76_Spread
import Verif.Props.C77_Shine
import Verif.Props.C78_Converge
import Verif.Props.C79_FogGlow
import Verif.Props.C80_Picture
import Verif.Props.C81_Load
import Verif.Props.C82_Animate
import Verif.Props.C83_Watch
import Verif.Props.C84_Lit
import Verif.Props.C85_Crash
import Verif.Props.C85_Violated
import Verif.Props.C86_BallHit
import Verif.Props.C87_SelfShadow
import Verif.Props.C89_Backdrop
import Verif.Props.C90_Debug
import Verif.Props.C91_BoxHit
import Verif.Props.C92_Room
import Verif.Props.C93_MeshFile
import Verif.Props.C94_Assembly
import Verif.Props.C95_LitAssembly
import Verif.Props.C96_Floor
import Verif.Props.C97_SkyLight
import Verif.Props.C98_Double
import Verif.Props.C99_Floor
import Verif.Props.C99_Lamps
import Verif.Props.C99_Shapes
import Verif.Spec.Assembly
import Verif.Spec.Backdrop
import Verif.Spec.Ball
import Verif.Spec.Bloom
import Verif.Spec.Box
import Verif.Spec.BoxSeen
import Verif.Spec.Brighter
import Verif.Spec.Built
import Verif.Spec.Chance
import Verif.Spec.Csg
import Verif.Spec.Double
import Verif.Spec.FloorSeen
import Verif.Spec.FogGlow
import Verif.Spec.Front
import Verif.Spec.Golden
import Verif.Spec.Halton
import Verif.Spec.Image
import Verif.Spec.Lamps
import Verif.Spec.Lit
import Verif.Spec.LitAssembly
import Verif.Spec.LitDouble
import Verif.Spec.LitMesh
import Verif.Spec.LitScene
import Verif.Spec.Load
import Verif.Spec.MapMat
import Verif.Spec.Materials
import Verif.Spec.Matte
import Verif.Spec.MeshFile
import Verif.Spec.MirrorDouble
import Verif.Spec.Moved
import Verif.Spec.Normals
import Verif.Spec.Optics
import Verif.Spec.Passes
import Verif.Spec.Paths
import Verif.Spec.Picture
import Verif.Spec.PictureDouble
import Verif.Spec.PlyFile
import Verif.Spec.Ppm
import Verif.Spec.Profile
import Verif.Spec.Radiance
import Verif.Spec.Room
import Verif.Spec.Rotation
import Verif.Spec.Sampler
import Verif.Spec.Server
import Verif.Spec.SkyLight
import Verif.Spec.Sturdy
import Verif.Spec.Text
import Verif.Spec.Texture
import Verif.Spec.TintDouble
import Verif.Spec.Tree
import Verif.Spec.Triangle
import Verif.Spec.ViewDouble
import Verif.Spec.Wavefront
