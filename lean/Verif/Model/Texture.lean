import Verif.Model.Scene

/-! Model of `/repo/texture`. Images are read only here, so they are lists of rows of colours. -/

namespace BR

set_option linter.unusedSectionVars false

variable {F : Type} [Add F] [Sub F] [Mul F] [Div F] [Neg F] [GoFloat F]

namespace Texture

/-- `img.Bounds().Dx()` and `Dy()` (imagef/image.go:22-33). -/
def size (img : List (List (Color F))) : Nat × Nat :=
  match img with
  | [] => (0, 0)
  | r :: _ => (r.length, img.length)

/-- texture/interpolation.go:94-96 `atIndex`. -/
def atIndex (img : List (List (Color F))) (i j : Int) : GoM (Color F) :=
  if j < 0 then .error .indexOutOfRange
  else match img[j.toNat]? with
    | none => .error .indexOutOfRange
    | some r =>
      if i < 0 then .error .indexOutOfRange
      else match r[i.toNat]? with
        | none => .error .indexOutOfRange
        | some c => .ok c

/-- The fractional part returned by `math.Modf`: it has the sign of the argument. -/
def modfFrac (x : F) : F := if x <. lit 0 then -frac (-x) else frac x

/-- texture/interpolation.go:82-91 `warp`. -/
def warp (x : F) : F :=
  let x := modfFrac x
  let x := if x <. lit 0 then lit 1 + x else x
  if x ==. lit 1 then lit 0 else x

/-- texture/interpolation.go:93-95 `bilin`. -/
def bilin (f00 f01 f10 f11 x y : F) : F :=
  f00 * (lit 1 - x) * (lit 1 - y) + f10 * x * (lit 1 - y) + f01 * (lit 1 - x) * y + f11 * x * y

/-- texture/interpolation.go:54-61, the index after `x0`, starting again at 0. -/
def next (x0 : Int) (w : Nat) : Int := if x0 + 1 ≥ w then 0 else x0 + 1

/-- texture/interpolation.go:41-80 `bilinear.AtUV`. -/
def bilinear (img : List (List (Color F))) (u v : F) : GoM (Color F) :=
  let w := (size img).1
  let h := (size img).2
  if !(u ==. u) || !(v ==. v) then .ok Color.black
  else do
    let X := warp u * ofInt ((w : Int) - 1)
    let Y := warp v * ofInt ((h : Int) - 1)
    let x0 := GoFloat.trunc X
    let y0 := GoFloat.trunc Y
    let x1 := next x0 w
    let y1 := next y0 h
    let x := frac X
    let y := frac Y
    let c00 ← atIndex img x0 y0
    let c01 ← atIndex img x0 y1
    let c10 ← atIndex img x1 y0
    let c11 ← atIndex img x1 y1
    return ⟨bilin c00.R c01.R c10.R c11.R x y, bilin c00.G c01.G c10.G c11.G x y, bilin c00.B c01.B c10.B c11.B x y⟩

/-- texture/interpolation.go:26-33 `nearest.AtUV`. -/
def nearest (img : List (List (Color F))) (u v : F) : GoM (Color F) :=
  let w := (size img).1
  let h := (size img).2
  let i := GoFloat.trunc (u * ofInt ((w : Int) - 1) + lit (1 / 2))
  let j := GoFloat.trunc (v * ofInt ((h : Int) - 1) + lit (1 / 2))
  atIndex img i j

/-- texture/func2d.go:16-18, interpolation.go:22-24 and 37-39: `At(p)` of a texture given by `AtUV`. -/
def atUV (f : F → F → GoM (Color F)) : Tex F := fun p => f p.x p.y

/-- texture/texture2d.go:38-40 `panned.AtUV`. -/
def panned (t : Tex F) (iScaleU iScaleV deltaU deltaV : F) : Tex F :=
  atUV fun u v => t ⟨u * iScaleU - deltaU, v * iScaleV - deltaV, lit 0⟩

/-- texture/texture2d.go:24-26 `Pan`. -/
def pan (t : Tex F) (deltaU deltaV : F) : Tex F := panned t (lit 1) (lit 1) deltaU deltaV

/-- texture/texture2d.go:28-30 `ScaleUV`. -/
def scaleUV (t : Tex F) (scaleU scaleV : F) : Tex F := panned t (lit 1 / scaleU) (lit 1 / scaleV) (lit 0) (lit 0)

/-- texture/assets.go:45-47 `floor`. -/
def floorInt (x : F) : Int := GoFloat.trunc (GoFloat.floor x)

/-- texture/assets.go:19-31 `Checkers`. Go's `%` truncates towards zero. -/
def checkers (pitchU pitchV : F) (a b : Tex F) : Tex F :=
  let pitchU := pitchU * lit 2
  let pitchV := pitchV * lit 2
  fun p =>
    let u := p.x
    let v := p.y
    if (floorInt (u * pitchU) + floorInt (v * pitchV)).tmod 2 = 0 then a ⟨u, v, lit 0⟩ else b ⟨u, v, lit 0⟩

/-- texture/assets.go:33-43 `Grid`. -/
def grid (width pitchU pitchV : F) (a b : Tex F) : Tex F :=
  atUV fun u v =>
    let u2 := frac (u * pitchU)
    let v2 := frac (v * pitchV)
    if u2 <. width * pitchU || v2 <. width * pitchV || u2 >. lit 1 - width * pitchU || v2 >. lit 1 - width * pitchV then
      b ⟨u, v, lit 0⟩
    else a ⟨u, v, lit 0⟩

/-- texture/uvmapper.go:24-37, the mapper of `MapFisheye`. `Normalized` is geom/vec.go. -/
def fisheyeUV (dir : Vec F) : F × F :=
  let dir := dir.normalized
  let r := GoFloat.sqrt (dir.z * dir.z + dir.x * dir.x)
  let r := GoFloat.asin r / (GoFloat.pi / lit 2)
  let th := GoFloat.atan2 dir.z dir.x
  let x := r * GoFloat.cos th
  let y := r * GoFloat.sin th
  (lit (1 / 2) + x * lit (1 / 2), lit (1 / 2) + y * lit (1 / 2))

/-- texture/uvmapper.go:24-37 `MapFisheye` with `mapped.At` of lines 79-82. -/
def mapFisheye (t : Tex F) : Tex F := fun p =>
  let (u, v) := fisheyeUV p
  t ⟨u, v, lit 0⟩

end Texture

end BR
