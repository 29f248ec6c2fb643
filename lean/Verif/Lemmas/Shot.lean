import Verif.Lemmas.ExtShade
import Verif.Lemmas.Tree
import Verif.Props.C80_Picture

/-! One pass over one pixel, in extended numbers: which ray is followed, from which context. -/

namespace BR

variable {S : Type}

/-- The first Halton number. -/
theorem halton_first {b : Nat} (hb : 2 ≤ b) : ∃ a : Ext, halton b 0 = .ok a ∧ a.Is (1 / b) := by
  have hb0 : ((b : Int) : ℝ) ≠ 0 := by positivity
  unfold halton
  rw [haltonLoop, if_pos (by omega), if_neg (by omega)]
  have e : GoFloat.trunc (GoFloat.floor (ofInt ((0 + 1 : Nat) : Int) / (ofInt (b : Int) : Ext))) =
      GoFloat.trunc (GoFloat.floor ((ofInt ((0 + 1 : Nat) : Int) : ℝ) / ofInt (b : Int))) := by
    rw [Ext.ofInt_ext, Ext.ofInt_ext, Ext.num_div_num _ _ _ _ hb0]
    rfl
  dsimp only
  rw [e, trunc_floor_div, haltonLoop, if_neg (by rw [Nat.div_eq_of_lt (by omega)]; simp)]
  refine ⟨_, rfl, ?_⟩
  refine Ext.Is.of_eq (lit0_is.add ((lit1_is.div (ofInt_is (b : Int)) hb0).mul (ofInt_is _))) ?_
  rw [Nat.mod_eq_of_lt (by omega)]
  push_cast
  ring

/-- The offset that is used with anti-aliasing: the sequence for it stays at its first member. -/
theorem aa_first (shifts : List (Ext × Ext)) :
    ∃ uv : Ext × Ext, (HaltonSeq.new 2 3 1 shifts).generate2 = .ok uv ∧ uv.1.Is (1 / 2) ∧ uv.2.Is (1 / 3) := by
  obtain ⟨a, e1, h1⟩ := halton_first (b := 2) le_rfl
  obtain ⟨b, e2, h2⟩ := halton_first (b := 3) (by norm_num)
  refine ⟨(frac (a + lit 0), frac (b + lit 0)), ?_, ?_, ?_⟩
  · unfold HaltonSeq.generate2 HaltonSeq.new
    dsimp only
    rw [e1, e2]
    rfl
  · refine Ext.Is.of_eq (h1.add lit0_is).frac ?_
    rw [Int.fract_eq_self.2] <;> norm_num
  · refine Ext.Is.of_eq (h2.add lit0_is).frac ?_
    rw [Int.fract_eq_self.2] <;> norm_num

/-- The size used to scale the offset. -/
theorem pixelSize_is {w h : Nat} (hw : 0 < w) (hh : 0 < h) :
    (pixelSize (w : Int) (h : Int) : Ext).Is (1 / min (w : ℝ) h) := by
  unfold pixelSize
  dsimp only
  have W := ofInt_is (w : Int)
  have H := ofInt_is (h : Int)
  have hw' : ((w : Int) : ℝ) ≠ 0 := by positivity
  have hh' : ((h : Int) : ℝ) ≠ 0 := by positivity
  rw [W.lt H]
  by_cases hlt : ((w : Int) : ℝ) < ((h : Int) : ℝ)
  · rw [if_pos (by simpa using hlt)]
    refine Ext.Is.of_eq (lit1_is.div W hw') ?_
    push_cast at hlt ⊢
    rw [min_eq_left hlt.le]
  · rw [if_neg (by simpa using hlt)]
    refine Ext.Is.of_eq (lit1_is.div H hh') ?_
    push_cast at hlt ⊢
    rw [min_eq_right (not_lt.1 hlt)]

/-- In every pass the camera's ray through the same point of the pixel is followed, from a context whose sequences
are set to the pixel and the pass. -/
theorem pixel_seqs {s : Scene Ext} {V : View} {cam : Cam Ext} {fov yaw pitch roll : Ext} {eye : Vec Ext}
    (h0 : 0 < V.fov) (h1 : V.fov < Real.pi) (hf : fov.Is V.fov) (hy : yaw.Is V.yaw) (hp : pitch.Is V.pitch)
    (hr : roll.Is V.roll) (he : eye.Is V.eye) (hcam : Cam.projective fov = .ok cam) {w h : Nat} (aa : Bool)
    (rng : Rng Ext S) {shifts : List (Ext × Ext)} (hshift : w * h ≤ shifts.length)
    {ctx : Ctx Ext S} (hctx : BetweenPixels shifts ctx) (p : Pixel)
    (hx : p.1 < w) (hyy : p.2 < h) (k : Nat) :
    ∃ (q : Ray Ext) (ctx1 : Ctx Ext S), q.Is (V.sight w h p.1 (sampleRow aa w h p.2)) ∧ BetweenPixels shifts ctx1 ∧
      (∃ sh ∈ shifts, shifts[w * p.2 + p.1]? = some sh ∧
        ctx1.seq1 = { HaltonSeq.new 2 3 1 shifts with shiftU := sh.1, shiftV := sh.2, index := k } ∧
        ctx1.seq2 = { HaltonSeq.new 5 7 1 shifts with shiftU := sh.1, shiftV := sh.2, index := k }) ∧
      passColor (ctxShader (s.imageFunc rng ((cam.yawPitchRoll yaw pitch roll).translate eye))) w h aa ctx p k =
        (do
          let (c, ctx) ← s.lightField rng s.recursionDepth.toNat .direct q ctx1.takeRay.2
          return (c, ctx.putRay ctx1.takeRay.1)) := by
  obtain ⟨cam', ecam, hsee⟩ := projective_sees (S := S) hf hy hp hr he h0 h1
  obtain rfl : cam = cam' := by rw [ecam] at hcam; injection hcam with e; exact e.symm
  have hwn : 0 < w := lt_of_le_of_lt (Nat.zero_le _) hx
  have hhn : 0 < h := lt_of_le_of_lt (Nat.zero_le _) hyy
  have hw0 : (w : ℝ) ≠ 0 := by exact_mod_cast hwn.ne'
  obtain ⟨u, v, euv, hu, hv⟩ := indexToCam_is hx hyy
  have hlt : w * p.2 + p.1 < shifts.length := by
    refine lt_of_lt_of_le ?_ hshift
    calc w * p.2 + p.1 < w * p.2 + w := by omega
      _ = w * (p.2 + 1) := by ring
      _ ≤ w * h := Nat.mul_le_mul_left _ hyy
  have hget : shifts[w * p.2 + p.1]? = some shifts[w * p.2 + p.1] := List.getElem?_eq_getElem hlt
  obtain ⟨ctx1, e1, hb1⟩ : ∃ ctx1, ctx.init (w * p.2 + p.1) k = .ok ctx1 ∧ BetweenPixels shifts ctx1 := by
    rcases init_between hctx hctx (w * p.2 + p.1) k with ⟨e, e1, -⟩ | ⟨d, -, e1, -, -, hb⟩
    · exfalso
      unfold Ctx.init at e1
      rw [HaltonSeq.init_like hctx.seq1, HaltonSeq.init_like hctx.seq2, HaltonSeq.init_like hctx.seqL] at e1
      simp only [HaltonSeq.init, HaltonSeq.new, hget, ok_bind] at e1
      cases e1
    · exact ⟨d, e1, hb⟩
  have eseq : ctx1.seq1 = { HaltonSeq.new 2 3 1 shifts with shiftU := shifts[w * p.2 + p.1].1, shiftV := shifts[w * p.2 + p.1].2, index := k } ∧
      ctx1.seq2 = { HaltonSeq.new 5 7 1 shifts with shiftU := shifts[w * p.2 + p.1].1, shiftV := shifts[w * p.2 + p.1].2, index := k } := by
    have e1' := e1
    unfold Ctx.init at e1'
    rw [HaltonSeq.init_like hctx.seq1, HaltonSeq.init_like hctx.seq2, HaltonSeq.init_like hctx.seqL] at e1'
    simp only [HaltonSeq.init, HaltonSeq.new, hget, ok_bind] at e1'
    cases e1'
    exact ⟨rfl, rfl⟩
  -- the point of the picture
  obtain ⟨u', v', hu', hv', epass⟩ : ∃ u' v' : Ext, u'.Is (((p.1 : ℝ) + 1 / 2) / w) ∧
      v'.Is (1 / 2 + ((h : ℝ) / 2 - (sampleRow aa w h p.2 + 1 / 2)) / w) ∧
      passColor (ctxShader (s.imageFunc rng ((cam.yawPitchRoll yaw pitch roll).translate eye))) w h aa ctx p k =
        s.imageFunc rng ((cam.yawPitchRoll yaw pitch roll).translate eye) ctx1 u' v' := by
    cases aa with
    | false =>
      refine ⟨u, v, hu, hv, ?_⟩
      unfold passColor
      rw [euv]
      simp only [ok_bind, ctxShader, e1, Bool.false_eq_true, if_false]
    | true =>
      obtain ⟨uv, eu, h1, h2⟩ := aa_first shifts
      have hs := pixelSize_is hwn hhn
      have half := Ext.Is.lit (1 / 2)
      refine ⟨u + pixelSize w h * (uv.1 - lit (1 / 2)), v + pixelSize w h * (uv.2 - lit (1 / 2)),
        Ext.Is.of_eq (hu.add (hs.mul (h1.sub half))) ?_, Ext.Is.of_eq (hv.add (hs.mul (h2.sub half))) ?_, ?_⟩
      · push_cast; ring
      · have hm : min (w : ℝ) h ≠ 0 := (lt_min (by exact_mod_cast hwn) (by exact_mod_cast hhn)).ne'
        simp only [sampleRow, if_true]
        push_cast
        field_simp
        ring
      · unfold passColor
        rw [euv]
        simp only [ok_bind, ctxShader, e1, if_true, hb1.aa, eu]
        rfl
  obtain ⟨q, hq, hqI⟩ := hsee u' v' _ _ hu' hv'
  have hsight : (⟨V.eye, turned V.yaw V.pitch V.roll (unitVec
      ⟨2 * Real.tan (V.fov / 2) * (((p.1 : ℝ) + 1 / 2) / w - 1 / 2),
        2 * Real.tan (V.fov / 2) * (1 / 2 + ((h : ℝ) / 2 - (sampleRow aa w h p.2 + 1 / 2)) / w - 1 / 2), -1⟩)⟩ : Ray ℝ) =
      V.sight w h p.1 (sampleRow aa w h p.2) := by
    unfold View.sight pixelDir
    generalize sampleRow aa w h p.2 = y
    have e1 : 2 * Real.tan (V.fov / 2) * (((p.1 : ℝ) + 1 / 2) / w - 1 / 2) =
        Real.tan (V.fov / 2) * ((2 * p.1 + 1 - w) / w) := by field_simp
    have e2 : 2 * Real.tan (V.fov / 2) * (1 / 2 + ((h : ℝ) / 2 - (y + 1 / 2)) / w - 1 / 2) =
        Real.tan (V.fov / 2) * ((h - (2 * y + 1)) / w) := by field_simp; ring
    rw [e1, e2]
  rw [hsight] at hqI
  refine ⟨q, ctx1, hqI, hb1, ⟨_, List.getElem_mem hlt, hget, eseq⟩, ?_⟩
  rw [epass]
  simp only [Scene.imageFunc, hq]

/-- In every pass the camera's ray through the same point of the pixel is followed, from a context whose sequences
give pairs in the unit square. -/
theorem pixel_shot {s : Scene Ext} {V : View} {cam : Cam Ext} {fov yaw pitch roll : Ext} {eye : Vec Ext}
    (h0 : 0 < V.fov) (h1 : V.fov < Real.pi) (hf : fov.Is V.fov) (hy : yaw.Is V.yaw) (hp : pitch.Is V.pitch)
    (hr : roll.Is V.roll) (he : eye.Is V.eye) (hcam : Cam.projective fov = .ok cam) {w h : Nat} (aa : Bool)
    (rng : Rng Ext S) {shifts : List (Ext × Ext)} (hshift : w * h ≤ shifts.length)
    (hfin : ∀ x ∈ shifts, (∃ a, x.1.Is a) ∧ ∃ b, x.2.Is b) {ctx : Ctx Ext S} (hctx : BetweenPixels shifts ctx) (p : Pixel)
    (hx : p.1 < w) (hyy : p.2 < h) (k : Nat) :
    ∃ (q : Ray Ext) (ctx1 : Ctx Ext S), q.Is (V.sight w h p.1 (sampleRow aa w h p.2)) ∧ BetweenPixels shifts ctx1 ∧
      (∃ uv, ctx1.seq1.generate2 = .ok uv ∧ UnitPair uv) ∧ (∃ uv, ctx1.seq2.generate2 = .ok uv ∧ UnitPair uv) ∧
      passColor (ctxShader (s.imageFunc rng ((cam.yawPitchRoll yaw pitch roll).translate eye))) w h aa ctx p k =
        (do
          let (c, ctx) ← s.lightField rng s.recursionDepth.toNat .direct q ctx1.takeRay.2
          return (c, ctx.putRay ctx1.takeRay.1)) := by
  obtain ⟨q, ctx1, hqI, hb1, ⟨sh, hmem, -, eseq⟩, e⟩ :=
    pixel_seqs (s := s) h0 h1 hf hy hp hr he hcam aa rng hshift hctx p hx hyy k
  have hfin' := hfin sh hmem
  exact ⟨q, ctx1, hqI, hb1, generate2_unit _ (by rw [eseq.1]; simp [HaltonSeq.new]) (by rw [eseq.1]; simp [HaltonSeq.new])
    (by rw [eseq.1]; exact hfin'.1) (by rw [eseq.1]; exact hfin'.2), generate2_unit _ (by rw [eseq.2]; simp [HaltonSeq.new])
    (by rw [eseq.2]; simp [HaltonSeq.new]) (by rw [eseq.2]; exact hfin'.1) (by rw [eseq.2]; exact hfin'.2), e⟩

/-- The image of a pixel that got finite colours in all passes is their mean. -/
theorem image_mean {c : Nat → Color Ext} {C : Nat → Color ℝ} (hc : ∀ k, (c k).Is (C k)) (n : Nat) (hn : 0 < n) :
    (accumulate c Cell.zero n).image.Is (meanColor C n) := by
  have nan : ∀ k, (c k).isNaN = false := by
    intro k
    unfold Color.isNaN
    rw [(hc k).1.eq (hc k).1, (hc k).2.1.eq (hc k).2.1, (hc k).2.2.eq (hc k).2.2]
    simp
  have key : ∀ k : Nat, (accumulate c Cell.zero k).n = k ∧
      (accumulate c Cell.zero k).sum.Is ⟨∑ i ∈ Finset.range k, (C i).R, ∑ i ∈ Finset.range k, (C i).G,
        ∑ i ∈ Finset.range k, (C i).B⟩ := by
    intro k
    induction k with
    | zero => exact ⟨rfl, by simpa using ⟨lit0_is, lit0_is, lit0_is⟩⟩
    | succ k ih =>
      simp only [accumulate, Cell.push, nan, Bool.false_eq_true, if_false, ih.1]
      refine ⟨trivial, ?_, ?_, ?_⟩
      · exact Ext.Is.of_eq (ih.2.1.add (hc k).1) (Finset.sum_range_succ _ _).symm
      · exact Ext.Is.of_eq (ih.2.2.1.add (hc k).2.1) (Finset.sum_range_succ _ _).symm
      · exact Ext.Is.of_eq (ih.2.2.2.add (hc k).2.2) (Finset.sum_range_succ _ _).symm
  obtain ⟨e, h1, h2, h3⟩ := key n
  have hn0 : (n : ℝ) ≠ 0 := by exact_mod_cast hn.ne'
  have hk : (lit 1 / ofInt (accumulate c Cell.zero n).n : Ext).Is (1 / n) := by
    rw [e]
    have := (Ext.Is.lit 1).div (ofInt_is (n : Int)) (by exact_mod_cast hn0)
    exact Ext.Is.of_eq this (by push_cast; rfl)
  refine ⟨?_, ?_, ?_⟩
  · exact Ext.Is.of_eq (hk.mul h1) (by simp only [meanColor]; field_simp)
  · exact Ext.Is.of_eq (hk.mul h2) (by simp only [meanColor]; field_simp)
  · exact Ext.Is.of_eq (hk.mul h3) (by simp only [meanColor]; field_simp)

end BR
