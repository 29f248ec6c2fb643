import Verif.Spec.Load
import Verif.Lemmas.Load
import Verif.Props.C38_SRGB
import Verif.Props.C42_Textures

/-! C81: pictures loaded from files. -/

namespace BR
set_option linter.unusedSectionVars false

section
variable {F : Type} [Add F] [Sub F] [Mul F] [Div F] [Neg F] [GoFloat F]

/-- **C81, pixels.** Every decoded file loads without panic, and the image has, in row `y` and column `x`, the colour of
the file in row `y` from the bottom; without a colour space the values are decoded from sRGB. In any arithmetic. -/
theorem C81_pixels (d : Decoded) (cs : Option (F → F)) :
    ∃ img, loadImage (.ok d) cs = .ok (.ok img) ∧
      Rows img d.w d.h fun x y => loadColor (cs.getD sRGBToLinear) (d.rgb x (d.h - 1 - y)) := by
  obtain ⟨img, e, h⟩ := loadPixels_rows (cs.getD sRGBToLinear) d
  refine ⟨img, ?_, h⟩
  simp only [loadImage, e, ok_bind]
  rfl

/-- **C81, errors.** Failing to open or decode the file is reported. -/
theorem C81_errors (e : String) (cs : Option (F → F)) : loadImage (.error e) cs = .ok (.error e) ∧
    loadTexture (F := F) (.error e) = .error (.msg e) ∧ loadHeightMap (F := F) (.error e) = .error (.msg e) :=
  ⟨rfl, rfl, rfl⟩

end

private theorem fraction_is (n : Nat) : (ofInt n / lit 65535 : Ext).Is ((n : ℝ) / 65535) := by
  have h : (ofInt (n : Int) : Ext).Is (n : ℝ) := ⟨_, by rw [Ext.ofInt_ext]; push_cast; rfl⟩
  have := h.div (Ext.Is.lit 65535) (by norm_num)
  simpa using this

private theorem decode_is {e : Ext} {x : ℝ} (h : e.Is x) : (sRGBToLinear e).Is (srgbDecode x) := by
  unfold sRGBToLinear srgbDecode
  rw [h.le (Ext.Is.lit _)]
  have e0 : ((4045 / 100000 : ℚ) : ℝ) = 0.04045 := by norm_num
  rw [e0]
  by_cases hx : x ≤ 0.04045
  · rw [if_pos (by simpa using hx), if_pos hx]
    have := h.div (Ext.Is.lit (1292 / 100)) (by norm_num)
    rwa [show ((1292 / 100 : ℚ) : ℝ) = 12.92 by norm_num] at this
  · rw [if_neg (by simpa using hx), if_neg hx]
    have := (h.add (Ext.Is.lit (55 / 1000))).div (Ext.Is.lit (1 + 55 / 1000)) (by norm_num)
    rw [show ((55 / 1000 : ℚ) : ℝ) = 0.055 by norm_num, show ((1 + 55 / 1000 : ℚ) : ℝ) = 1.055 by norm_num] at this
    obtain ⟨s, hs⟩ := this
    rw [hs]
    refine ⟨false, ?_⟩
    show Ext.num (_ ^ (((24 / 10 : ℚ)) : ℝ)) false = _
    rw [show ((24 / 10 : ℚ) : ℝ) = 2.4 by norm_num]

private theorem pixels_of_rows {cs : Ext → Ext} {g : ℝ → ℝ} (hcs : ∀ e x, e.Is x → (cs e).Is (g x)) {d : Decoded}
    {img : List (List (Color Ext))} (h : Rows img d.w d.h fun x y => loadColor cs (d.rgb x (d.h - 1 - y))) :
    Texture.Pixels img d.w d.h fun x y ch => g (d.fromBottom x y ch) := by
  refine ⟨h.1, fun y r hr => ⟨(h.2 y r hr).1, fun x c hc ch => ?_⟩⟩
  rw [(h.2 y r hr).2 x c hc]
  cases ch
  · exact hcs _ _ (fraction_is _)
  · exact hcs _ _ (fraction_is _)
  · exact hcs _ _ (fraction_is _)

/-- **C81, textures are upright.** A picture file with at least one pixel loads as a texture whose colour at coordinates
`(s, t)` interpolates the file's decoded colours, with `s` counting to the right and `t` counting up from the bottom of
the picture. -/
theorem C81_upright (d : Decoded) (hw : 0 < d.w) (hh : 0 < d.h) :
    ∃ tex : Tex Ext, loadTexture (.ok d) = .ok tex ∧ ∀ (p : Vec Ext) (s t : ℝ), p.x.Is s → p.y.Is t →
      ∃ c, tex p = .ok c ∧ ∀ ch, (c.at ch).Is
        (Texture.interp d.w d.h (fun x y => srgbDecode (d.fromBottom x y ch)) (Int.fract s) (Int.fract t)) := by
  obtain ⟨img, e, h⟩ := C81_pixels d (some (sRGBToLinear : Ext → Ext))
  refine ⟨Texture.atUV (Texture.bilinear img), ?_, fun p s t hs ht => ?_⟩
  · unfold loadTexture
    rw [e]
    rfl
  · exact Texture.C42_bilinear img d.w d.h _ (pixels_of_rows (fun _ _ => decode_is) h) hw hh p.x p.y s t hs ht

/-- **C81, pixel centres.** In particular the texture has at `(x/(w-1), y/(h-1))` the decoded colour of the pixel in
column `x` from the left and row `y` from the bottom. The last column and row are left out: there the texture starts
again (see C42). -/
theorem C81_centres (d : Decoded) (x y : Nat) (hx : x + 1 < d.w) (hy : y + 1 < d.h) :
    ∃ tex : Tex Ext, loadTexture (.ok d) = .ok tex ∧ ∀ p : Vec Ext, p.x.Is (x / ((d.w : ℝ) - 1)) →
      p.y.Is (y / ((d.h : ℝ) - 1)) → ∃ c, tex p = .ok c ∧ ∀ ch, (c.at ch).Is (srgbDecode (d.fromBottom x y ch)) := by
  obtain ⟨img, e, h⟩ := C81_pixels d (some (sRGBToLinear : Ext → Ext))
  refine ⟨Texture.atUV (Texture.bilinear img), ?_, fun p hs ht => ?_⟩
  · unfold loadTexture
    rw [e]
    rfl
  · exact Texture.C42_centres img d.w d.h _ (pixels_of_rows (fun _ _ => decode_is) h) x y hx hy p.x p.y hs ht

/-- **C81, height maps.** A height map has at `(s, t)` the interpolated red value of the file, not decoded. -/
theorem C81_heights (d : Decoded) (hw : 0 < d.w) (hh : 0 < d.h) :
    ∃ tex : Tex Ext, loadHeightMap (.ok d) = .ok tex ∧ ∀ (u v : Ext) (s t : ℝ), u.Is s → v.Is t →
      ∃ z, heightOf tex u v = .ok z ∧
        z.Is (Texture.interp d.w d.h (fun x y => d.fromBottom x y .r) (Int.fract s) (Int.fract t)) := by
  obtain ⟨img, e, h⟩ := C81_pixels d (some (linearSpace : Ext → Ext))
  refine ⟨Texture.atUV (Texture.bilinear img), ?_, fun u v s t hs ht => ?_⟩
  · unfold loadHeightMap
    rw [e]
    rfl
  · obtain ⟨c, ec, hc⟩ := Texture.C42_bilinear img d.w d.h _ (pixels_of_rows (g := id) (fun _ _ h => h) h) hw hh u v s t hs ht
    refine ⟨c.R, ?_, hc .r⟩
    show (Texture.bilinear img u v >>= _) = _
    rw [ec]
    rfl

theorem srgbDecode_mem {s : ℝ} (h0 : 0 ≤ s) (h1 : s ≤ 1) : 0 ≤ srgbDecode s ∧ srgbDecode s ≤ 1 := by
  unfold srgbDecode
  split_ifs with h
  · constructor
    · positivity
    · rw [div_le_one (by norm_num)]
      norm_num at h ⊢
      linarith
  · have b0 : 0 ≤ (s + 0.055) / 1.055 := by positivity
    refine ⟨by positivity, Real.rpow_le_one b0 ?_ (by norm_num)⟩
    rw [div_le_one (by norm_num)]
    norm_num
    linarith

/-- **C81, range.** The colours of a loaded texture are between 0 and 1 everywhere, so it is a reflectance that does not
create light (C63). -/
theorem C81_range (d : Decoded) (hv : d.Valid) (hw : 0 < d.w) (hh : 0 < d.h) :
    ∃ tex : Tex Ext, loadTexture (.ok d) = .ok tex ∧ ∀ (p : Vec Ext) (s t : ℝ), p.x.Is s → p.y.Is t →
      ∃ c, tex p = .ok c ∧ ∀ ch, ∃ z, (c.at ch).Is z ∧ 0 ≤ z ∧ z ≤ 1 := by
  obtain ⟨img, e, h⟩ := C81_pixels d (some (sRGBToLinear : Ext → Ext))
  refine ⟨Texture.atUV (Texture.bilinear img), ?_, fun p s t hs ht => ?_⟩
  · unfold loadTexture
    rw [e]
    rfl
  · obtain ⟨c, ec, wt, w0, w1, hc⟩ := Texture.C42_convex img d.w d.h _ (pixels_of_rows (fun _ _ => decode_is) h) hw hh
      p.x p.y s t hs ht
    refine ⟨c, ec, fun ch => ⟨_, hc ch, ?_, ?_⟩⟩
    · refine Finset.sum_nonneg fun y hy => Finset.sum_nonneg fun x hx => mul_nonneg (w0 x y) ?_
      refine (srgbDecode_mem ?_ ?_).1
      · cases ch <;> (simp only [Decoded.fromBottom]; positivity)
      · obtain ⟨a, b, c⟩ := hv x (Finset.mem_range.1 hx) (d.h - 1 - y) (by omega)
        cases ch <;> (simp only [Decoded.fromBottom]; rw [div_le_one (by norm_num)]; norm_cast)
    · rw [← w1]
      refine Finset.sum_le_sum fun y hy => Finset.sum_le_sum fun x hx => ?_
      refine mul_le_of_le_one_right (w0 x y) ?_
      refine (srgbDecode_mem ?_ ?_).2
      · cases ch <;> (simp only [Decoded.fromBottom]; positivity)
      · obtain ⟨a, b, c⟩ := hv x (Finset.mem_range.1 hx) (d.h - 1 - y) (by omega)
        cases ch <;> (simp only [Decoded.fromBottom]; rw [div_le_one (by norm_num)]; norm_cast)

/-! ## Loading and saving -/

/-- Specification of what happens to a byte of a PNG file that is loaded and saved again. -/
def resaved (b : Nat) : Nat := if b ≤ 10 then b else min 255 (b + if b < 185 then 1 else 2)

private theorem clip_unit {c : ℝ} (h0 : 0 ≤ c) (h1 : c ≤ 1) : clip c = c := by
  simp only [clip, lt_real, lit_real, decide_eq_true_eq]
  push_cast
  rw [if_neg (not_lt.2 h0), if_neg (not_lt.2 h1)]

private theorem byte_resaved (b : Nat) (hb : b ≤ 255) :
    GoFloat.trunc (linearToSRGB (sRGBToLinear ((ofInt ((b * 257 : Nat) : Int) : ℝ) / lit 65535)) * lit 65535) / 256 =
      (resaved b : Int) := by
  have hbR : (b : ℝ) ≤ 255 := by exact_mod_cast hb
  have es : ((ofInt ((b * 257 : Nat) : Int) : ℝ) / lit 65535) = (b : ℝ) / 255 := by
    simp only [ofInt_real, lit_real]
    push_cast
    rw [div_eq_div_iff (by norm_num) (by norm_num)]
    ring
  rw [es]
  have hdec : sRGBToLinear ((b : ℝ) / 255) = if (b : ℝ) / 255 ≤ 4045 / 100000 then (b : ℝ) / 255 / (1292 / 100)
      else (((b : ℝ) / 255 + 55 / 1000) / (1 + 55 / 1000)) ^ (24 / 10 : ℝ) := by
    unfold sRGBToLinear
    simp only [le_real, lit_real, pow_real, decide_eq_true_eq]
    push_cast
    rfl
  have htr : ∀ (z : ℝ) (n : ℤ), 0 ≤ z → (n : ℝ) ≤ z → z < n + 1 → (GoFloat.trunc z : Int) = n := by
    intro z n h0 h1 h2
    show realTrunc z = n
    unfold realTrunc
    rw [if_pos h0]
    exact Int.floor_eq_iff.2 ⟨h1, h2⟩
  by_cases h10 : b ≤ 10
  · have h10R : (b : ℝ) ≤ 10 := by exact_mod_cast h10
    have b0 : (0 : ℝ) ≤ b := Nat.cast_nonneg b
    rw [hdec, if_pos (by linarith)]
    have henc : linearToSRGB ((b : ℝ) / 255 / (1292 / 100)) = (b : ℝ) / 255 := by
      unfold linearToSRGB
      rw [show clip ((b : ℝ) / 255 / (1292 / 100)) = (b : ℝ) / 255 / (1292 / 100) from ?_]
      · simp only [le_real, lit_real, decide_eq_true_eq]
        push_cast
        rw [if_pos (by linarith)]
        field_simp
      · exact clip_unit (by positivity) (by linarith)
    rw [henc, htr _ (257 * b : Int) (by simp only [lit_real]; positivity)
      (by simp only [lit_real]; push_cast; linarith) (by simp only [lit_real]; push_cast; linarith)]
    unfold resaved
    rw [if_pos h10]
    omega
  · have h11R : (11 : ℝ) ≤ b := by exact_mod_cast (by omega : 11 ≤ b)
    rw [hdec, if_neg (by rw [not_le]; linarith)]
    obtain ⟨u, hu⟩ : ∃ u : ℝ, u = ((b : ℝ) / 255 + 55 / 1000) / (1 + 55 / 1000) := ⟨_, rfl⟩
    have hu' : 1055 / 1000 * u = (b : ℝ) / 255 + 55 / 1000 := by rw [hu]; field_simp; ring
    rw [← hu]
    have u0 : 93 / 1000 ≤ u := by linarith
    have u1 : u ≤ 1 := by linarith
    have upos : 0 ≤ u := by linarith
    have clow : (31308 / 10000000 : ℝ) < u ^ (24 / 10 : ℝ) := by
      by_contra hcon
      rw [not_lt] at hcon
      have p5 : (u ^ (24 / 10 : ℝ)) ^ 5 ≤ (31308 / 10000000 : ℝ) ^ 5 := pow_le_pow_left₀ (by positivity) hcon 5
      have e12 : (u ^ (24 / 10 : ℝ)) ^ 5 = u ^ 12 := by
        rw [← Real.rpow_natCast, ← Real.rpow_mul upos, ← Real.rpow_natCast]
        norm_num
      rw [e12] at p5
      have := pow_le_pow_left₀ (by norm_num) u0 12
      have : (93 / 1000 : ℝ) ^ 12 ≤ (31308 / 10000000 : ℝ) ^ 5 := this.trans p5
      norm_num at this
    have chigh : u ^ (24 / 10 : ℝ) ≤ 1 := Real.rpow_le_one upos u1 (by norm_num)
    have henc : linearToSRGB (u ^ (24 / 10 : ℝ)) = if (b : ℝ) / 255 + 5 / 1000 > 1 then 1 else (b : ℝ) / 255 + 5 / 1000 := by
      unfold linearToSRGB
      rw [show clip (u ^ (24 / 10 : ℝ)) = u ^ (24 / 10 : ℝ) from ?_]
      · simp only [le_real, lt_real, lit_real, pow_real, decide_eq_true_eq]
        push_cast
        rw [if_neg (by rw [not_le]; exact clow), ← Real.rpow_mul upos,
          show (24 / 10 * (1 / (24 / 10)) : ℝ) = 1 by norm_num, Real.rpow_one,
          show (1055 / 1000 * u - 5 / 100 : ℝ) = (b : ℝ) / 255 + 5 / 1000 by linarith]
      · exact clip_unit (by positivity) chigh
    rw [henc]
    unfold resaved
    rw [if_neg h10]
    by_cases h253 : b ≤ 253
    · have : (b : ℝ) ≤ 253 := by exact_mod_cast h253
      rw [if_neg (by rw [gt_iff_lt, not_lt]; linarith), htr _ (257 * b + 327 : Int) (by simp only [lit_real]; positivity)
        (by simp only [lit_real]; push_cast; linarith) (by simp only [lit_real]; push_cast; linarith)]
      split_ifs <;> omega
    · have : (254 : ℝ) ≤ b := by exact_mod_cast (by omega : 254 ≤ b)
      rw [if_pos (by rw [gt_iff_lt]; linarith), htr _ (65535 : Int) (by simp only [lit_real]; positivity)
        (by simp only [lit_real]; push_cast; linarith) (by simp only [lit_real]; push_cast; linarith)]
      split_ifs <;> omega

/-- A file of 8-bit values, given by `B`. -/
def Decoded.Bytes (d : Decoded) (B : Nat → Nat → Nat × Nat × Nat) : Prop :=
  ∀ x < d.w, ∀ y < d.h, (B x y).1 ≤ 255 ∧ (B x y).2.1 ≤ 255 ∧ (B x y).2.2 ≤ 255 ∧
    d.rgb x y = ((B x y).1 * 257, (B x y).2.1 * 257, (B x y).2.2 * 257)

/-- **C81, loading and saving.** An 8-bit file that is loaded and saved as PNG, in exact arithmetic, comes out upside down
and with its bytes changed by `resaved`. -/
theorem C81_resave (d : Decoded) (B : Nat → Nat → Nat × Nat × Nat) (hB : d.Bytes B) (hh : 0 < d.h) :
    ∃ img : List (List (Color ℝ)), loadImage (.ok d) none = .ok (.ok img) ∧
      (savedPng img).w = d.w ∧ (savedPng img).h = d.h ∧
      (savedPng img).Bytes fun x y => ((resaved (B x (d.h - 1 - y)).1), (resaved (B x (d.h - 1 - y)).2.1),
        (resaved (B x (d.h - 1 - y)).2.2)) := by
  obtain ⟨img, e, h⟩ := C81_pixels (F := ℝ) d none
  have hsize : Texture.size img = (d.w, d.h) := by
    cases img with
    | nil => have := h.1; simp at this; omega
    | cons r rs =>
      have h1 := h.1
      have h2 := (h.2 0 r rfl).1
      unfold Texture.size
      dsimp only
      rw [h1, h2]
  have ew : (savedPng img).w = d.w := by rw [show (savedPng img).w = (Texture.size img).1 from rfl, hsize]
  have eh : (savedPng img).h = d.h := by rw [show (savedPng img).h = (Texture.size img).2 from rfl, hsize]
  refine ⟨img, e, ew, eh, ?_⟩
  intro x hx y hy
  rw [ew] at hx
  rw [eh] at hy
  obtain ⟨b1, b2, b3, eb⟩ := hB x hx (d.h - 1 - y) (by omega)
  have hy' : y < img.length := by rw [h.1]; exact hy
  have e1 := List.getElem?_eq_getElem hy'
  obtain ⟨hr, hpx⟩ := h.2 y _ e1
  have hx' : x < img[y].length := by rw [hr]; exact hx
  have e2 := List.getElem?_eq_getElem hx'
  have e3 := hpx x _ e2
  have range : ∀ b : Nat, b ≤ 255 → resaved b ≤ 255 := by
    intro b hb
    unfold resaved
    split_ifs <;> omega
  refine ⟨range _ b1, range _ b2, range _ b3, ?_⟩
  simp only [savedPng, e1, e2]
  rw [e3]
  dsimp only
  rw [eb]
  have key := fun b hb => congrArg (fun z : Int => (z * 257).toNat) (byte_resaved b hb)
  simp only [widen, Color.bytes, Color.rgba, loadColor, Option.getD_none]
  refine Prod.ext ?_ (Prod.ext ?_ ?_)
  · exact (key _ b1).trans (by omega)
  · exact (key _ b2).trans (by dsimp only; omega)
  · exact (key _ b3).trans (by dsimp only; omega)

/-- **C81 violated: pictures fade.** Each time a picture is loaded and saved, every byte from 11 to 254 gets brighter;
after at most 244 times it is 255. -/
theorem C81_violated_fades (b : Nat) (h0 : 11 ≤ b) (h1 : b < 255) :
    b < resaved b ∧ ∀ n, 244 ≤ n → resaved^[n] b = 255 := by
  have step : ∀ c, 11 ≤ c → c ≤ 255 → min 255 (c + 1) ≤ resaved c ∧ resaved c ≤ 255 := by
    intro c hc hc'
    unfold resaved
    split_ifs <;> omega
  refine ⟨by have := step b h0 h1.le; omega, ?_⟩
  have iter : ∀ n, min 255 (b + n) ≤ resaved^[n] b ∧ resaved^[n] b ≤ 255 := by
    intro n
    induction n with
    | zero => exact ⟨by simp, h1.le⟩
    | succ n ih =>
      rw [Function.iterate_succ_apply']
      have := step (resaved^[n] b) (by omega) ih.2
      omega
  intro n hn
  have := iter n
  omega

/-- **C81 violated: pictures turn over.** A picture that is loaded and saved is upside down, even if it is only black and
white. -/
theorem C81_violated_flipped : ∃ d : Decoded, d.Valid ∧ ∃ img : List (List (Color ℝ)),
    loadImage (.ok d) none = .ok (.ok img) ∧ d.rgb 0 0 = (0, 0, 0) ∧ (savedPng img).rgb 0 0 = (65535, 65535, 65535) := by
  let B : Nat → Nat → Nat × Nat × Nat := fun _ y => if y = 0 then (0, 0, 0) else (255, 255, 255)
  let d : Decoded := ⟨1, 2, fun _ y => if y = 0 then (0, 0, 0) else (65535, 65535, 65535)⟩
  have hB : d.Bytes B := by
    intro x _ y _
    by_cases h : y = 0 <;> simp [B, d, h]
  obtain ⟨img, e, ew, eh, h⟩ := C81_resave d B hB (by decide)
  refine ⟨d, ?_, img, e, by simp [d], ?_⟩
  · intro x _ y _
    by_cases h : y = 0 <;> simp [d, h]
  · have := (h 0 (by rw [ew]; decide) 0 (by rw [eh]; decide)).2.2.2
    simpa [B, d, resaved] using this

/-- A file of two by two pixels: red above green on the left, white above black on the right. -/
def sampleFile : Decoded := ⟨2, 2, fun x y => if x = 0 then if y = 0 then (65535, 0, 0) else (0, 65535, 0)
  else if y = 0 then (65535, 65535, 65535) else (0, 0, 0)⟩

/-- Non-vacuity: the texture of this file is green at the lower left corner and, halfway up the left side, half red and
half green. -/
example : sampleFile.Valid ∧ sampleFile.Bytes (fun x y => if x = 0 then if y = 0 then (255, 0, 0) else (0, 255, 0)
      else if y = 0 then (255, 255, 255) else (0, 0, 0)) ∧
    Texture.interp 2 2 (fun x y => srgbDecode (sampleFile.fromBottom x y .g)) 0 0 = 1 ∧
    Texture.interp 2 2 (fun x y => srgbDecode (sampleFile.fromBottom x y .r)) 0 (1 / 2) = 1 / 2 := by
  refine ⟨?_, ?_, ?_, ?_⟩
  · intro x _ y _
    simp only [sampleFile]
    split_ifs <;> simp
  · intro x _ y _
    simp only [sampleFile]
    split_ifs <;> simp
  · norm_num [Texture.interp, Texture.lerp, sampleFile, Decoded.fromBottom, srgbDecode]
  · have f : Int.fract (1 / 2 : ℝ) = 1 / 2 := Int.fract_eq_self.2 (by norm_num)
    have g : ⌊(1 / 2 : ℝ)⌋₊ = 0 := Nat.floor_eq_zero.2 (by norm_num)
    have f' : Int.fract (2⁻¹ : ℝ) = 2⁻¹ := by rw [← one_div]; exact f
    have g' : ⌊(2⁻¹ : ℝ)⌋₊ = 0 := by rw [← one_div]; exact g
    norm_num [Texture.interp, Texture.lerp, sampleFile, Decoded.fromBottom, srgbDecode, f, g, f', g']

end BR
