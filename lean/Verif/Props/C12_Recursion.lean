import Verif.Lemmas.Scene
import Verif.Num.Ext

/-! C12: recursion depth. All but the last theorem hold for every number type.

`lightFieldFrom base n` is the light field in which nested evaluations beyond the `n`-th are
replaced by `base`; a fresh context has depth 0. -/

namespace BR
set_option linter.unusedSectionVars false

section

variable {F S : Type} [Add F] [Sub F] [Mul F] [Div F] [Neg F] [GoFloat F]

/-- **C12, termination.** From depth `d ≤ limit`, evaluation never nests more than `limit - d`
levels: what is put in place of deeper evaluations is never consulted, however it behaves, and
allowing more levels changes nothing. This holds for every scene, ray and random source. -/
theorem C12_stops (rng : Rng F S) (s : Scene F) (beyond beyond' : LF F S) (n n' : Nat) (f : Field)
    (r : Ray F) (c : Ctx F S) (hd : c.depth ≤ s.recursionDepth)
    (hn : s.recursionDepth - c.depth ≤ n) (hn' : s.recursionDepth - c.depth ≤ n') :
    s.lightFieldFrom rng beyond n f r c = s.lightFieldFrom rng beyond' n' f r c :=
  lightFieldFrom_indep beyond beyond' n n' f r c hd hn hn'

/-- At the limit the answer is black and the context is untouched; in particular a recursion
depth of zero renders black. -/
theorem C12_limit_black (rng : Rng F S) (s : Scene F) (n : Nat) (f : Field) (r : Ray F) (c : Ctx F S)
    (h : c.depth = s.recursionDepth) : s.lightField rng n f r c = .ok (Color.black, c) := by
  rw [Scene.lightField, lightFieldFrom_limit _ _ _ _ _ h.symm]

/-- A completed evaluation leaves the depth counter, the deterministic sequences and the number
of borrowed rays as they were, at any depth and for any limit. -/
theorem C12_restores (rng : Rng F S) (s : Scene F) (n : Nat) (f : Field) (r : Ray F) (c : Ctx F S)
    (col : Color F) (c' : Ctx F S) (e : s.lightField rng n f r c = .ok (col, c')) :
    c'.depth = c.depth ∧ c'.seq1 = c.seq1 ∧ c'.seq2 = c.seq2 ∧
      (c'.rays.next : Int) - c'.rays.free.length = (c.rays.next : Int) - c.rays.free.length := by
  have h := lightField_step n f r c.depth c col c' rfl e
  exact ⟨h.depth, h.seq1, h.seq2, by have := h.out; unfold Ctx.outstanding at this; omega⟩

/-- The depth counter is increased by one while a surface is shaded: a nested evaluation by the
material sees exactly `d + 1`. Stated with a material that reveals the light field it is given: a
perfect mirror reports what the nested evaluation at depth `d + 1` says. -/
theorem C12_nested_depth (rng : Rng F S) (s : Scene F) (n : Nat) (f : Field) (r r' : Ray F) (c : Ctx F S)
    (col : Color F) (front : HitRecord F (Mat F)) (hm : s.media = []) (hne : s.recursionDepth ≠ c.depth)
    (hf : intersectFrontmost (s.seen f) r = .ok (front, r')) (hmat : front.mat = some (.reflective col)) :
    s.lightField rng (n + 1) f r c =
      (do
        let (a, c1) := ({ c with depth := c.depth + 1 } : Ctx F S).takeRay
        let (x, c2) ← s.lightField rng n .direct
          ⟨r'.at (front.t - tiny), reflect r'.dir front.normal.normalized⟩ c1
        let c3 := c2.putRay a
        return (x.mul3 col, { c3 with depth := c3.depth - 1 })) := by
  rw [Scene.lightField, Scene.lightFieldFrom, if_neg hne]
  dsimp only
  rw [hf, ok_bind]
  simp only [shadeFront, hmat, Mat.shade, withRay, hm, mediaLoop, Scene.lightField, bind_assoc,
    pure_bind', ok_bind]

end

/-! ## What happens below the limit's reach -/

/-- A room whose only surface is a mirror all around. -/
noncomputable def mirrorRoom (limit : Int) : Scene Ext :=
  { lights := [], objects := [.backdrop (some (.reflective Color.white))], media := [],
    recursionDepth := limit }

theorem mirrorRoom_front (limit : Int) (f : Field) (r : Ray Ext) :
    intersectFrontmost ((mirrorRoom limit).seen f) r =
      .ok (⟨lit (10 ^ 99), r.dir, r.dir, some (.reflective Color.white)⟩, r) := by
  have : (mirrorRoom limit).seen f = [.backdrop (some (.reflective Color.white))] := by
    cases f <;> rfl
  rw [this]
  simp only [intersectFrontmost, intersectLoop, Obj.intersect, ok_bind, frontDefault]
  simp

/-- The mirror room with limit 3 is not trivial: three nested evaluations are needed and two are
not enough (the hypotheses of `C12_stops` are met with `n = 3`). -/
example (rng : Rng Ext Unit) (r : Ray Ext) (c : Ctx Ext Unit) (h : c.depth = 0) :
    (∃ col c', (mirrorRoom 3).lightField rng 3 .direct r c = .ok (col, c')) ∧
    (mirrorRoom 3).lightField rng 2 .direct r c = .error .diverge := by
  have hne : ∀ d : Int, d < 3 → (mirrorRoom 3).recursionDepth ≠ d := by
    intro d hd; change (3 : Int) ≠ d; omega
  constructor
  · rw [C12_nested_depth rng (mirrorRoom 3) 2 .direct r r c _ _ rfl (hne _ (by omega))
      (mirrorRoom_front 3 _ r) rfl]
    dsimp only
    rw [C12_nested_depth rng (mirrorRoom 3) 1 .direct _ _ _ _ _ rfl
      (hne _ (by simp [Ctx.takeRay, h])) (mirrorRoom_front 3 _ _) rfl]
    dsimp only
    rw [C12_nested_depth rng (mirrorRoom 3) 0 .direct _ _ _ _ _ rfl
      (hne _ (by simp [Ctx.takeRay, h])) (mirrorRoom_front 3 _ _) rfl]
    dsimp only
    rw [C12_limit_black _ _ _ _ _ _ (by simp [Ctx.takeRay, h, mirrorRoom])]
    exact ⟨_, _, rfl⟩
  · rw [C12_nested_depth rng (mirrorRoom 3) 1 .direct r r c _ _ rfl (hne _ (by omega))
      (mirrorRoom_front 3 _ r) rfl]
    dsimp only
    rw [C12_nested_depth rng (mirrorRoom 3) 0 .direct _ _ _ _ _ rfl
      (hne _ (by simp [Ctx.takeRay, h])) (mirrorRoom_front 3 _ _) rfl]
    dsimp only
    rw [Scene.lightField, Scene.lightFieldFrom, if_neg (hne _ (by simp [Ctx.takeRay, h]))]
    rfl

/-- **Disagreement.** With a negative recursion limit (nothing rejects it) evaluation never ends:
the test is for equality, so counting up from 0 never meets it. No number of nested evaluations
suffices in the mirror room. -/
theorem C12_violated_negative (limit : Int) (hl : limit < 0) (rng : Rng Ext Unit) (r : Ray Ext)
    (c : Ctx Ext Unit) (hc : 0 ≤ c.depth) (n : Nat) :
    (mirrorRoom limit).lightField rng n .direct r c = .error .diverge := by
  induction n generalizing r c with
  | zero =>
    rw [Scene.lightField, Scene.lightFieldFrom, if_neg (by change limit ≠ _; omega)]
  | succ n ih =>
    rw [C12_nested_depth rng (mirrorRoom limit) n .direct r r c _ _ rfl (by change limit ≠ _; omega)
      (mirrorRoom_front limit _ r) rfl]
    dsimp only
    rw [ih _ _ (by simp [Ctx.takeRay]; omega)]
    rfl

end BR
