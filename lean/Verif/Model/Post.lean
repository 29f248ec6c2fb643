import Verif.Model.Image

/-! Model of `/repo/imagef/post/convolution.go` and `/repo/imagef/post/params.go`. -/

namespace BR

set_option linter.unusedSectionVars false

variable {F : Type} [Add F] [Sub F] [Mul F] [Div F] [Neg F] [GoFloat F]

namespace Post

/-- `len(img[iy])` for an index obtained from `range img`. -/
def rowLen (img : Img) (iy : Nat) : Nat := match img[iy]? with
  | none => 0
  | some r => r.len

/-- imagef/post/convolution.go:19-25, the sum of the kernel. -/
def kernelSum (H : Heap (Color F)) (kern : Img) : GoM F :=
  (List.range kern.length).foldlM (fun s (iy : Nat) =>
    (List.range (rowLen kern iy)).foldlM (fun s (ix : Nat) => do
      let c ← Img.get H kern ix iy
      return s + (c.R + c.G + c.B) / lit 3) s) (lit 0)

/-- imagef/post/convolution.go:28-32, scaling the copied kernel. -/
def scale (k : Img) (factor : F) (H : Heap (Color F)) : GoM (Heap (Color F)) :=
  (List.range k.length).foldlM (fun H (iy : Nat) =>
    (List.range (rowLen k iy)).foldlM (fun H (ix : Nat) => do
      let c ← Img.get H k ix iy
      Img.set H k ix iy (c.mul factor)) H) H

/-- imagef/post/convolution.go:50-54, the body of the loop over `ikx`. -/
def splatCell (dst k : Img) (c : Color F) (w kdx : Nat) (ix : Nat) (iky : Nat) (idy : Int) (ikx : Nat)
    (H : Heap (Color F)) : GoM (Heap (Color F)) :=
  let idx : Int := ix + ikx - kdx
  if idx < 0 ∨ idx ≥ w then .ok H
  else do
    let d ← Img.get H dst idx idy
    let kc ← Img.get H k ikx iky
    Img.set H dst idx idy (d.add (c.mul3 kc))

/-- imagef/post/convolution.go:44-55, the body of the loop over `iky`. -/
def splatRow (dst k : Img) (c : Color F) (w h kw kdx kdy : Nat) (ix iy : Nat) (iky : Nat)
    (H : Heap (Color F)) : GoM (Heap (Color F)) :=
  let idy : Int := iy + iky - kdy
  if idy < 0 ∨ idy ≥ h then .ok H
  else (List.range kw).foldlM (fun H ikx => splatCell dst k c w kdx ix iky idy ikx H) H

/-- imagef/post/convolution.go:39-41. -/
def above (c : Color F) (offset : F) : Color F := ⟨fRe (c.R - offset), fRe (c.G - offset), fRe (c.B - offset)⟩

/-- imagef/post/convolution.go:35-56, the body of the loop over `ix`. -/
def splat (dst src k : Img) (offset : F) (w h kw kh kdx kdy : Nat) (iy ix : Nat)
    (H : Heap (Color F)) : GoM (Heap (Color F)) := do
  let c ← Img.get H src ix iy
  if c.max <. offset then .ok H
  else (List.range kh).foldlM (fun H iky => splatRow dst k (above c offset) w h kw kdx kdy ix iy iky H) H

/-- imagef/post/convolution.go:11-60 `AddConvolution`. Returns the heap; the image returned is `dst`. -/
def addConvolution (dst src kern : Img) (amplitude offset : F) (H : Heap (Color F)) : GoM (Heap (Color F)) := do
  let w := src.size.1
  let h := src.size.2
  let kw := kern.size.1
  let kh := kern.size.2
  let sum ← kernelSum H kern
  let (k, H) ← Img.copy Color.black kern H
  let H ← scale k (amplitude / sum) H
  (List.range h).foldlM (fun H iy =>
    (List.range w).foldlM (fun H ix => splat dst src k offset w h kw kh (kw / 2) (kh / 2) iy ix H) H) H

/-- imagef/post/convolution.go:87-99 `kernel`. -/
def kernel (pixels : Int) (f : F → F → Color F) (H : Heap (Color F)) : GoM (Img × Heap (Color F)) := do
  let n := 2 * pixels + 1
  let center := n.tdiv 2
  let (k, H) ← Img.make Color.black n n H
  let H ← (List.range n.toNat).foldlM (fun H (iky : Nat) =>
    (List.range n.toNat).foldlM (fun H (ikx : Nat) =>
      Img.set H k ikx iky (f (ofInt (ikx - center)) (ofInt (iky - center)))) H) H
  return (k, H)

/-- imagef/post/convolution.go:62-68 `Gaussian`, the function given to `kernel`. -/
def gaussianAt (width u v : F) : Color F :=
  let r2 := (u * u + v * v) / (width * width)
  let c := GoFloat.exp (-r2)
  ⟨c, c, c⟩

/-- imagef/post/convolution.go:83-85 `airy`. `j1` is `math.J1`, the Bessel function, as a parameter. -/
def airy (j1 : F → F) (r : F) : F := sqr (lit 2 * j1 r / r)

/-- imagef/post/convolution.go:70-82 `Airy`, the function given to `kernel`. -/
def airyAt (j1 : F → F) (width u v : F) : Color F :=
  let r := GoFloat.sqrt (u * u + v * v) / width
  if r ==. lit 0 then ⟨lit 1, lit 1, lit 1⟩
  else ⟨airy j1 (lit (500 / 700) * r), airy j1 (lit (500 / 500) * r), airy j1 (lit (500 / 450) * r)⟩

/-- imagef/post/convolution.go:104-121, the body of the loop of `starKernel`. -/
def starArm (k : Img) (pixels : Int) (i : Int) (H : Heap (Color F)) : GoM (Heap (Color F)) := do
  let v : F := sqr (ofInt (pixels - i) / ofInt pixels)
  let col : Color F := ⟨v, v, v⟩
  let c := pixels
  let H ← Img.set H k (c + i) c col
  let H ← Img.set H k (c - i) c col
  let H ← Img.set H k c (c + i) col
  let H ← Img.set H k c (c - i) col
  let col := col.mul (lit 1 / GoFloat.sqrt (lit 2))
  let H ← Img.set H k (c + i) (c + i) col
  let H ← Img.set H k (c - i) (c - i) col
  let H ← Img.set H k (c - i) (c + i) col
  Img.set H k (c + i) (c - i) col

/-- imagef/post/convolution.go:101-124 `starKernel`. -/
def starKernel (pixels : Int) (H : Heap (Color F)) : GoM (Img × Heap (Color F)) := do
  let n := 2 * pixels + 1
  let (k, H) ← Img.make Color.black n n H
  let H ← (List.range (pixels - 3).toNat).foldlM (fun H (i : Nat) => starArm k pixels (2 + i) H) H
  return (k, H)

/-- imagef/post/params.go:31-38 `ApplyGaussianBloom`. -/
def gaussianBloom (img : Img) (pixelSize radius amplitude threshold : F) (H : Heap (Color F)) :
    GoM (Img × Heap (Color F)) := do
  let widthPix := radius / pixelSize
  let numPix := GoFloat.trunc (lit 5 * widthPix) + 1
  let (K, H) ← kernel numPix (gaussianAt widthPix) H
  let (img2, H) ← Img.copy Color.black img H
  let H ← addConvolution img2 img K amplitude threshold H
  return (img2, H)

/-- imagef/post/params.go:40-47 `ApplyAiryBloom`. -/
def airyBloom (j1 : F → F) (img : Img) (pixelSize radius amplitude threshold : F) (H : Heap (Color F)) :
    GoM (Img × Heap (Color F)) := do
  let widthPix := radius / pixelSize
  let numPix := GoFloat.trunc (lit 8 * widthPix) + 1
  let (K, H) ← kernel numPix (airyAt j1 widthPix) H
  let (img2, H) ← Img.copy Color.black img H
  let H ← addConvolution img2 img K amplitude threshold H
  return (img2, H)

/-- imagef/post/params.go:49-56 `ApplyStarBloom`. -/
def starBloom (img : Img) (pixelSize radius amplitude threshold : F) (H : Heap (Color F)) :
    GoM (Img × Heap (Color F)) := do
  let widthPix := radius / pixelSize
  let numPix := GoFloat.trunc widthPix
  let (K, H) ← starKernel numPix H
  let (img2, H) ← Img.copy Color.black img H
  let H ← addConvolution img2 img K amplitude threshold H
  return (img2, H)

/-- imagef/post/params.go:12-16 `BloomParams`. -/
structure Bloom (F : Type) where
  radius : F
  amplitude : F
  threshold : F

/-- imagef/post/params.go:6-10 `Params`. -/
structure Params (F : Type) where
  gaussian : Bloom F
  airy : Bloom F
  star : Bloom F

/-- imagef/post/params.go:19-21 and the like. -/
def applyIf (apply : Img → F → F → F → Heap (Color F) → GoM (Img × Heap (Color F))) (b : Bloom F) (img : Img)
    (H : Heap (Color F)) : GoM (Img × Heap (Color F)) :=
  if !(b.radius ==. lit 0) then apply img b.radius b.amplitude b.threshold H else .ok (img, H)

/-- imagef/post/params.go:18-29 `ApplyTo`. -/
def Params.applyTo (j1 : F → F) (p : Params F) (img : Img) (pixelSize : F) (H : Heap (Color F)) :
    GoM (Img × Heap (Color F)) := do
  let (img, H) ← applyIf (fun img => gaussianBloom img pixelSize) p.gaussian img H
  let (img, H) ← applyIf (fun img => airyBloom j1 img pixelSize) p.airy img H
  applyIf (fun img => starBloom img pixelSize) p.star img H

end Post

end BR
