import Verif.Model.Color
import Mathlib.Data.Nat.Digits.Defs

/-! Model of `/repo/imagef/ppm/ppm.go`. The encoders only read the image, so it is a list of rows of
colours here. The `io.Writer` is any state machine: `write s bs` is the writer after the call and whether
the call returned no error. -/

namespace BR.Ppm

variable {F : Type} [Add F] [Sub F] [Mul F] [Div F] [Neg F] [GoFloat F]
variable {σ : Type} (write : σ → List UInt8 → σ × Bool)

/-- imagef/ppm/ppm.go:72-82 `trunc`, with `ppmMaxCol` of line 12. -/
def trunc (c : F) : Int :=
  let c := linearToSRGB c
  let i := GoFloat.trunc (c * lit 65535)
  let i := if i > 65535 then 65535 else i
  if i < 0 then 0 else i

/-- The text of a non-negative number as printed by package fmt. -/
def decimal (n : Nat) : List UInt8 :=
  if n = 0 then [48] else (Nat.digits 10 n).reverse.map fun d => UInt8.ofNat (48 + d)

/-- `img.Bounds().Dx()` and `Dy()` (imagef/image.go:22-33). -/
def size (img : List (List (Color F))) : Nat × Nat :=
  match img with
  | [] => (0, 0)
  | r :: _ => (r.length, img.length)

/-- imagef/ppm/ppm.go:59-70 `writeHeader`; `format` is `"P3"` or `"P6"`. Each `Fprintln` is one write. -/
def writeHeader (format : List UInt8) (img : List (List (Color F))) (s : σ) : σ × Bool :=
  let (s, ok) := write s (format ++ [10])
  if !ok then (s, false) else
  let (s, ok) := write s (decimal (size img).1 ++ [32] ++ decimal (size img).2 ++ [10])
  if !ok then (s, false) else
  let (s, ok) := write s (decimal 65535 ++ [10])
  if !ok then (s, false) else (s, true)

/-- imagef/ppm/ppm.go:20-25, the loop over a row: one write per pixel. `trunc` is never negative. -/
def asciiRow : List (Color F) → σ → σ × Bool
  | [], s => (s, true)
  | c :: cs, s =>
    let (s, ok) := write s (decimal (trunc c.R).toNat ++ [32] ++ decimal (trunc c.G).toNat ++ [32] ++
      decimal (trunc c.B).toNat ++ [32])
    if !ok then (s, false) else asciiRow cs s

/-- imagef/ppm/ppm.go:19-29, the loop over the rows, with a newline after each. -/
def asciiRows : List (List (Color F)) → σ → σ × Bool
  | [], s => (s, true)
  | r :: rs, s =>
    let (s, ok) := asciiRow write r s
    if !ok then (s, false) else
    let (s, ok) := write s [10]
    if !ok then (s, false) else asciiRows rs s

/-- imagef/ppm/ppm.go:15-31 `EncodeAscii16`. The result is whether the error is nil. -/
def encodeAscii16 (img : List (List (Color F))) (s : σ) : σ × Bool :=
  let (s, ok) := writeHeader write [80, 51] img s
  if !ok then (s, false) else asciiRows write img s

/-- imagef/ppm/ppm.go:54-57 `encodeUint16BE` of `uint16(x)`. -/
def uint16BE (x : Int) : List UInt8 :=
  let u := (x % 65536).toNat
  [UInt8.ofNat (u / 256), UInt8.ofNat (u % 256)]

/-- imagef/ppm/ppm.go:40-50, the loops over the pixels; the results of the writes are ignored. -/
def binaryRow : List (Color F) → σ → σ
  | [], s => s
  | c :: cs, s =>
    let s := (write s (uint16BE (trunc c.R))).1
    let s := (write s (uint16BE (trunc c.G))).1
    let s := (write s (uint16BE (trunc c.B))).1
    binaryRow cs s

/-- imagef/ppm/ppm.go:33-52 `Encode48BE`. -/
def encode48BE (img : List (List (Color F))) (s : σ) : σ × Bool :=
  let (s, ok) := writeHeader write [80, 54] img s
  if !ok then (s, false) else (img.foldl (fun s r => binaryRow write r s) s, true)

end BR.Ppm
