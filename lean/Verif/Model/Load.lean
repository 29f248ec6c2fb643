import Verif.Model.Texture

/-! Model of `/repo/imagef/load.go`, of the textures made from picture files (`/repo/texture/texture2d.go:11-22`,
`/repo/api/texture.go`) and of the 8-bit values an image saved as PNG has. Go's decoders and encoders are not modelled:
a decoded file is its size and its 16-bit values. -/

namespace BR

set_option linter.unusedSectionVars false

variable {F : Type} [Add F] [Sub F] [Mul F] [Div F] [Neg F] [GoFloat F]

/-- What `image.Decode` returns for a PNG or JPEG file: the size (`Bounds()` starts at (0, 0)), and `At(x, y).RGBA()`
without alpha, `x` counted from the left and `y` from the top. The values are at most 65535. -/
structure Decoded where
  w : Nat
  h : Nat
  rgb : Nat → Nat → Nat × Nat × Nat

/-- The rows of `MakeImage` (imagef/image.go:13-20), before anything is written to them. -/
def zeroRows (w h : Nat) : List (List (Color F)) := List.replicate h (List.replicate w Color.black)

/-- The assignment `img[j][i] = c`. -/
def setPixel (img : List (List (Color F))) (i j : Int) (c : Color F) : GoM (List (List (Color F))) :=
  if j < 0 then .error .indexOutOfRange
  else match img[j.toNat]? with
    | none => .error .indexOutOfRange
    | some r =>
      if i < 0 ∨ r.length ≤ i.toNat then .error .indexOutOfRange
      else .ok (img.set j.toNat (r.set i.toNat c))

/-- imagef/load.go:43-47: one value of the file in the given colour space. -/
def loadColor (colorspace : F → F) (c : Nat × Nat × Nat) : Color F :=
  ⟨colorspace (ofInt c.1 / lit 65535), colorspace (ofInt c.2.1 / lit 65535), colorspace (ofInt c.2.2 / lit 65535)⟩

/-- imagef/load.go:35-51: the loops of `Load`. -/
def loadPixels (colorspace : F → F) (d : Decoded) : GoM (List (List (Color F))) :=
  (List.range d.h).foldlM (fun img (y : Nat) =>
    (List.range d.w).foldlM (fun img (x : Nat) =>
      setPixel img x ((d.h : Int) - 1 - y) (loadColor colorspace (d.rgb x y))) img) (zeroRows d.w d.h)

/-- imagef/load.go:22-52 `Load`. `file` is the outcome of opening and decoding the file; a nil colour space is `none`.
The outer result is a panic, the inner one the returned error. -/
def loadImage (file : Except String Decoded) (colorspace : Option (F → F)) : GoM (Except String (List (List (Color F)))) :=
  match file with
  | .error e => .ok (.error e)
  | .ok d => do
    let img ← loadPixels (colorspace.getD sRGBToLinear) d
    return .ok img

/-- imagef/load.go:55 `Linear`. -/
def linearSpace (s : F) : F := s

/-- texture/texture2d.go:11-14 `MustLoad` and api/texture.go:9-11 `LoadTexture`. A failure to load ends the program. -/
def loadTexture (file : Except String Decoded) : GoM (Tex F) := do
  match ← loadImage file (some sRGBToLinear) with
  | .error e => .error (.msg e)
  | .ok img => return Texture.atUV (Texture.bilinear img)

/-- texture/texture2d.go:16-22 `HeightMap` and api/texture.go:13-15 `LoadHeightMap`. -/
def loadHeightMap (file : Except String Decoded) : GoM (Tex F) := do
  match ← loadImage file (some linearSpace) with
  | .error e => .error (.msg e)
  | .ok img => return Texture.atUV (Texture.bilinear img)

/-- api/texture.go:21-25 `Texture.HeightMap`. -/
def heightOf (t : Tex F) (u v : F) : GoM F := do return (← t ⟨u, v, lit 0⟩).R

/-- What `png.Encode` stores for a pixel of a floating-point image (its colour model is nil, so the encoder takes its
default case): the upper bytes of `RGBA()` (imagef/colorf/color.go:47-53). -/
def Color.bytes (c : Color F) : Int × Int × Int := (c.rgba.1 / 256, c.rgba.2.1 / 256, c.rgba.2.2.1 / 256)

/-- What decoding that pixel gives: Go repeats the byte, `r | r<<8`. -/
def widen (b : Int × Int × Int) : Nat × Nat × Nat := ((b.1 * 257).toNat, (b.2.1 * 257).toNat, (b.2.2 * 257).toNat)

/-- The file that saving an image as PNG leaves behind, decoded: row `y` of the image is row `y` from the top. Black
outside the image. -/
def savedPng (img : List (List (Color F))) : Decoded where
  w := (Texture.size img).1
  h := (Texture.size img).2
  rgb x y := match img[y]? with
    | none => (0, 0, 0)
    | some r => match r[x]? with
      | none => (0, 0, 0)
      | some c => widen c.bytes

end BR
