import Verif.Model.Geom

/-! Model of `/repo/imagef/colorf/color.go`. -/

namespace BR

variable {F : Type} [Add F] [Sub F] [Mul F] [Div F] [Neg F] [GoFloat F]

/-- imagef/colorf/color.go:27-29 `Color`. -/
@[ext] structure Color (F : Type) where
  R : F
  G : F
  B : F

namespace Color

/-- imagef/colorf/color.go:11 `Black`, the zero value `Color{}`. -/
def black : Color F := ⟨lit 0, lit 0, lit 0⟩

/-- imagef/colorf/color.go:12 `White`. -/
def white : Color F := ⟨lit 1, lit 1, lit 1⟩

/-- imagef/colorf/color.go:31-33 `Gray(v)`. -/
def gray (v : F) : Color F := ⟨v, v, v⟩

/-- imagef/colorf/color.go:58-61 `Mul`. -/
def mul (c : Color F) (s : F) : Color F := ⟨s * c.R, s * c.G, s * c.B⟩

/-- imagef/colorf/color.go:87-90 `EV`, 63-68 `Color.EV`. -/
def ev (c : Color F) (e : F) : Color F := c.mul (GoFloat.pow (lit 2) e)

/-- imagef/colorf/color.go:72-74 `Mul3`. -/
def mul3 (c b : Color F) : Color F := ⟨c.R * b.R, c.G * b.G, c.B * b.B⟩

/-- imagef/colorf/color.go:77-79 `Add`. -/
def add (c b : Color F) : Color F := ⟨c.R + b.R, c.G + b.G, c.B + b.B⟩

/-- imagef/colorf/color.go:82-85 `MAdd`: `c + s*b`. -/
def madd (c : Color F) (s : F) (b : Color F) : Color F :=
  ⟨c.R + s * b.R, c.G + s * b.G, c.B + s * b.B⟩

/-- imagef/colorf/color.go:92-101 `Max`. -/
def max (c : Color F) : F :=
  let m := c.R
  let m := if c.G >. m then c.G else m
  if c.B >. m then c.B else m

/-- imagef/colorf/color.go:103-105 `Gray()`. -/
def grayVal (c : Color F) : F := (c.R + c.G + c.B) / lit 3

/-- imagef/colorf/color.go:151-153 `IsNaN`: `a.R != a.R || ...`. -/
def isNaN (c : Color F) : Bool := !(c.R ==. c.R) || !(c.G ==. c.G) || !(c.B ==. c.B)

end Color

/-- imagef/colorf/color.go:141-149 `clip`. -/
def clip (v : F) : F :=
  let v := if v <. lit 0 then lit 0 else v
  if v >. lit 1 then lit 1 else v

/-- imagef/colorf/color.go:109-119 `LinearToSRGB`. -/
def linearToSRGB (c : F) : F :=
  let c := clip c
  if c <=. lit (31308 / 10000000) then lit (1292 / 100) * c
  else
    let c := lit (1055 / 1000) * GoFloat.pow c (lit (1 / (24 / 10))) - lit (5 / 100)
    if c >. lit 1 then lit 1 else c

/-- imagef/colorf/color.go:132-138 `SRGBToLinear`. -/
def sRGBToLinear (s : F) : F :=
  if s <=. lit (4045 / 100000) then s / lit (1292 / 100)
  else GoFloat.pow ((s + lit (55 / 1000)) / lit (1 + 55 / 1000)) (lit (24 / 10))

/-- imagef/colorf/color.go:121-127 `SRGBSlope`. -/
def sRGBSlope (c : F) : F :=
  if c <=. lit (31308 / 10000000) then lit (1292 / 100)
  else lit (1055 / 1000 * (1 / (24 / 10))) * GoFloat.pow c (lit (1 / (24 / 10) - 1))

/-- imagef/colorf/color.go:47-53 `RGBA`: 16-bit sRGB channels and full alpha. -/
def Color.rgba (c : Color F) : Int × Int × Int × Int :=
  (GoFloat.trunc (linearToSRGB c.R * lit 65535), GoFloat.trunc (linearToSRGB c.G * lit 65535),
   GoFloat.trunc (linearToSRGB c.B * lit 65535), 65535)

end BR
