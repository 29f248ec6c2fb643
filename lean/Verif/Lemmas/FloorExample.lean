import Verif.Lemmas.FloorSeen
import Verif.Props.C86_BallHit

/-! A floor and a ray, for examples. -/

namespace BR

open Flo

/-- The floor of 8 by 8 around the origin. -/
theorem eight_floor : LevelRectangle (lit 8) (lit 8) ⟨lit 0, lit 0, lit 0⟩ 8 8 ⟨0, 0, 0⟩ := by
  have i8 : (lit 8 : Flo).Is 8 := by simpa using flo_int_is 8 (by norm_num)
  have i0 : (lit 0 : Flo).Is 0 := Ball.flo_zero
  exact ⟨i8, i8, ⟨i0, i0, i0⟩, by norm_num, by norm_num, by norm_num, by norm_num, by norm_num, roundBits_zero 53⟩

/-- It can be made. -/
theorem eight_floor_ok {M : Type} (S : Sorter (Obj Flo M)) (m : Option M) :
    ∃ o, rectangle S m (lit 8) (lit 8) ⟨lit 0, lit 0, lit 0⟩ = .ok o := by
  obtain ⟨bb, O, A, B, E, x0, x1, x2, z0, z1, -, e⟩ := floor_shape S m eight_floor.width eight_floor.depth
    eight_floor.center eight_floor.w_ge eight_floor.d_ge eight_floor.x_le eight_floor.y_le eight_floor.z_le eight_floor.exact
  exact ⟨_, e⟩

/-- Someone at `(1, 2, 1)` who looks straight down (`k = -1`) or up (`k = 1`). -/
theorem over_eight (k : ℤ) (hk : k = 1 ∨ k = -1) :
    LookingFrom ⟨⟨lit 1, lit 2, lit 1⟩, ⟨lit 0, lit (k : ℚ), lit 0⟩⟩ ⟨1, 2, 1⟩ ⟨0, k, 0⟩ 0 := by
  have i0 : (lit 0 : Flo).Is 0 := Ball.flo_zero
  have i1 : (lit 1 : Flo).Is 1 := flo_lit_one
  have i2 : (lit 2 : Flo).Is 2 := by simpa using flo_int_is 2 (by norm_num)
  have ik := flo_int_is k (by rcases hk with h | h <;> rw [h] <;> norm_num)
  have kk : (k : ℝ) ^ 2 = 1 := by rcases hk with h | h <;> rw [h] <;> norm_num
  exact ⟨⟨i1, i2, i1⟩, ⟨i0, ik, i0⟩, by norm_num [Within], by norm_num, by norm_num [kk], by norm_num [kk]⟩

end BR
