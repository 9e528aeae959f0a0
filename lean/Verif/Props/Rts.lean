import Verif.Model.Rts
import Verif.Props.FloatEq
import Verif.Props.Matrix
import Mathlib.Tactic.Ring
import Mathlib.Tactic.LinearCombination
/-! # C137: transforms of bones as translation, rotation and scale -/
namespace PreCore.Rts
open PreCore.Vec PreCore.F32

/-! ## Specification -/

/-- Where a transformation matrix puts a point: the rows are the images of the axes, the fourth row is the position. -/
def place {R} [CommRing R] (m : Mat R) (p : V3 R) : V3 R :=
  ⟨p.x * m.r1.x + p.y * m.r2.x + p.z * m.r3.x + m.r4.x,
   p.x * m.r1.y + p.y * m.r2.y + p.z * m.r3.y + m.r4.y,
   p.x * m.r1.z + p.y * m.r2.z + p.z * m.r3.z + m.r4.z⟩

/-- The corresponding components of two values. -/
def Each (r : ℚ → ℚ → Prop) (u v : RTS ℚ) : Prop := u.translation.Each r v.translation ∧ u.rotation.Each r v.rotation ∧ u.scale.Each r v.scale
/-- The floats have these values. -/
structure Holds (a : RTS Fl) (u : RTS ℚ) : Prop where
  t : a.translation.Holds u.translation
  r : a.rotation.Holds u.rotation
  s : a.scale.Holds u.scale

/-! ## Transformation -/

section
variable {R : Type} [CommRing R]

/-- C137: the default value leaves every point where it is. -/
theorem default_place (m : Mat R) (p : V3 R) : place (RTS.default.toMatrix m) p = p := by
  simp [place, RTS.toMatrix, RTS.default, Mat.compose, Mat.fromQuat, V4.all, mk4, V4.mul, V4.add, V4.mulS, shuffle, V4.lane, setPs]

/-- A product with a matrix whose axes have no fourth component. -/
theorem place_mul (c parent : Mat R) (h1 : c.r1.w = 0) (h2 : c.r2.w = 0) (h3 : c.r3.w = 0) (p : V3 R) :
    place (c.mul parent) p = ⟨(place parent (place c p)).x + (c.r4.w - 1) * parent.r4.x, (place parent (place c p)).y + (c.r4.w - 1) * parent.r4.y,
      (place parent (place c p)).z + (c.r4.w - 1) * parent.r4.z⟩ := by
  simp only [place, Mat.mul, Mat.transposeFull, mk4, setPs, V4.dpPs, unpacklo, unpackhi, movelh, movehl, h1, h2, h3]
  congr 1 <;> ring

theorem toMatrix_w (m : Mat R) (v : RTS R) : (v.toMatrix m).r1.w = 0 ∧ (v.toMatrix m).r2.w = 0 ∧ (v.toMatrix m).r3.w = 0 ∧
    (v.toMatrix m).r4 = v.translation := by
  simp [RTS.toMatrix, Mat.compose, Mat.fromQuat, V4.all, mk4, V4.mul, V4.add, V4.mulS, shuffle, V4.lane, setPs]

/-- C137: a bone's matrix times its parent's matrix puts points where the parent puts what the bone puts, if the fourth component of the
translation is 1. -/
theorem chain_partial (m parent : Mat R) (v : RTS R) (hv : v.translation.w = 1) (p : V3 R) :
    place ((v.toMatrix m).mul parent) p = place parent (place (v.toMatrix m) p) := by
  obtain ⟨h1, h2, h3, h4⟩ := toMatrix_w m v
  rw [place_mul _ _ h1 h2 h3, h4, hv]
  simp

/-- C137 is violated: the default value has the fourth component 0, so a bone with the default value loses the position of its parent: every
point is put beside the place where the parent puts it, by the parent's position. -/
theorem chain_default_violated (m parent : Mat R) (p : V3 R) :
    place ((RTS.default.toMatrix m).mul parent) p =
      ⟨(place parent p).x - parent.r4.x, (place parent p).y - parent.r4.y, (place parent p).z - parent.r4.z⟩ := by
  obtain ⟨h1, h2, h3, h4⟩ := toMatrix_w m (RTS.default : RTS R)
  rw [place_mul _ _ h1 h2 h3, h4, default_place]
  simp only [RTS.default, V4.all]
  congr 1 <;> ring
end

/-- A bone turned around, moved by (1, 2, 3), below a parent at (10, 20, 30). -/
example : place ((RTS.toMatrix .identity (⟨⟨1, 2, 3, 1⟩, ⟨0, 0, 1, 0⟩, ⟨2, 2, 2, 0⟩⟩ : RTS ℤ)).mul ⟨⟨1, 0, 0, 0⟩, ⟨0, 1, 0, 0⟩, ⟨0, 0, 1, 0⟩, ⟨10, 20, 30, 1⟩⟩) ⟨1, 1, 1⟩ =
    ⟨9, 20, 35⟩ := by decide
example : place ((RTS.toMatrix .identity (RTS.default : RTS ℤ)).mul ⟨⟨1, 0, 0, 0⟩, ⟨0, 1, 0, 0⟩, ⟨0, 0, 1, 0⟩, ⟨10, 20, 30, 1⟩⟩) ⟨1, 1, 1⟩ = ⟨1, 1, 1⟩ := by
  decide

/-! ## Comparison -/

/-- C137: values all of whose components differ by at most 2^-23 are equal; equal values differ by no more than that and a rounding error. -/
theorem equal_iff_close (a b : RTS Fl) (u v : RTS ℚ) (ha : Holds a u) (hb : Holds b v) :
    (Each Close u v → a.eq b = true ∧ a.ne b = false) ∧
    (Each (fun x _ => |x| ≤ 2 ^ 126) v v → a.eq b = true → Each Nearly u v) := by
  constructor
  · rintro ⟨h1, h2, h3⟩
    have k := close_equal.2.2
    have : a.eq b = true := by
      unfold RTS.eq
      rw [(k _ _ _ _ ha.t hb.t h1).2, (k _ _ _ _ ha.r hb.r h2).2, (k _ _ _ _ ha.s hb.s h3).2]; rfl
    exact ⟨this, by unfold RTS.ne; rw [this]; rfl⟩
  · rintro ⟨m1, m2, m3⟩ h
    have k := equal_nearly.2.2
    unfold RTS.eq at h
    rw [Bool.and_eq_true, Bool.and_eq_true] at h
    exact ⟨k _ _ _ _ ha.t hb.t m1 (.inr h.1.1), k _ _ _ _ ha.r hb.r m2 (.inr h.1.2), k _ _ _ _ ha.s hb.s m3 (.inr h.2)⟩

/-- C137: a value with a component that is not a number is different from every value. -/
theorem nan_different (a b : RTS Fl) (i : Fin 4)
    (h : val (a.translation.lane i).bits = .nan ∨ val (a.rotation.lane i).bits = .nan ∨ val (a.scale.lane i).bits = .nan) : a.ne b = true := by
  unfold RTS.ne RTS.eq
  rcases h with h | h | h
  · rw [(nan_unequal _ b.translation i h).2]; rfl
  · rw [(nan_unequal _ b.rotation i h).2]; simp
  · rw [(nan_unequal _ b.scale i h).2]; simp

/-- C137: in Python the value is (translation, rotation, scale), each with its components in order. -/
theorem tuple_order {α} (v : RTS α) : v.tuple = [v.translation.toList, v.rotation.toList, v.scale.toList] := rfl

/-- The default value and one that is 2^-24 off in a scale. -/
example : (RTS.default : RTS Fl).eq { RTS.default with scale := ⟨⟨0x3f7fffff⟩, 1, 1, 0⟩ } = true ∧
    (RTS.default : RTS Fl).eq { RTS.default with scale := ⟨⟨0x3f7ffff0⟩, 1, 1, 0⟩ } = false ∧
    (RTS.default : RTS Fl).ne { RTS.default with rotation := ⟨⟨0x7fc00000⟩, 0, 0, 1⟩ } = true := by decide +kernel

end PreCore.Rts
