import Verif.Props.FloatEq
import Verif.Props.FloatNorm
/-!
# C141: infinities, divisions by zero and what is not a number in float vectors
-/
namespace PreCore.Vec
open PreCore.F32

/-! ## Specification -/

/-- The float is not a number. -/
def NotNumber (x : Fl) : Prop := val x.bits = .nan
/-- The float is an infinity with the given sign. -/
def Infinite (x : Fl) (negative : Bool) : Prop := val x.bits = .inf negative
/-- The float is a zero with the given sign. -/
def IsZero (x : Fl) (negative : Bool) : Prop := val x.bits = .fin negative 0

/-- The place of a float on the number line with both infinities; none for what is not a number. -/
noncomputable def place (x : Fl) : Option EReal :=
  match val x.bits with
  | .nan => none
  | .inf true => some ⊥
  | .inf false => some ⊤
  | .fin s m => some (((if s then - (m : ℝ) else (m : ℝ)) / 2 ^ 149 : ℝ) : EReal)

/-! ## Single operations -/

theorem quiet_nan {b : F32} (h : val b = .nan) : val (b ||| 0x00400000) = .nan := by
  have he : expo b = 255 := by
    unfold val at h
    by_contra hne
    simp only [hne, if_false] at h
    split at h <;> cases h
  have bits : ∀ i, 23 ≤ i → i < 31 → b.getLsbD i = true := by
    intro i h1 h2
    have e : b.toNat / 2 ^ 23 % 2 ^ 8 = 2 ^ 8 - 1 := he
    have : (b.toNat / 2 ^ 23 % 2 ^ 8).testBit (i - 23) = true := by
      rw [e, Nat.testBit_two_pow_sub_one]; simp; omega
    rw [Nat.testBit_mod_two_pow, Nat.testBit_div_two_pow] at this
    rw [Bool.and_eq_true] at this
    have := this.2
    rwa [show i - 23 + 23 = i by omega] at this
  have he2 : expo (b ||| 0x00400000) = 255 := by
    unfold expo
    apply Nat.eq_of_testBit_eq
    intro i
    rw [Nat.testBit_mod_two_pow, Nat.testBit_div_two_pow, show (255 : Nat) = 2 ^ 8 - 1 by norm_num, Nat.testBit_two_pow_sub_one]
    by_cases hi : i < 8
    · have := bits (i + 23) (by omega) (by omega)
      simp only [hi, decide_true, Bool.true_and]
      change (b ||| 0x00400000#32).getLsbD (i + 23) = true
      rw [BitVec.getLsbD_or, this]; rfl
    · simp [hi]
  have hm : mant (b ||| 0x00400000) ≠ 0 := by
    unfold mant
    intro h0
    have := congrArg (·.testBit 22) h0
    simp only [Nat.testBit_mod_two_pow, Nat.zero_testBit] at this
    change (decide (22 < 23) && (b ||| 0x00400000#32).getLsbD 22) = false at this
    rw [BitVec.getLsbD_or] at this
    simp at this
  unfold val
  rw [if_pos he2, if_neg hm]


theorem negate_bit (b : F32) (i : Nat) : (negate b).toNat.testBit i = (b.toNat.testBit i ^^ decide (31 = i)) := by
  unfold negate
  have : (b ^^^ 0x80000000).toNat = b.toNat ^^^ 2 ^ 31 := by rw [BitVec.toNat_xor]; rfl
  rw [this, Nat.testBit_xor, Nat.testBit_two_pow]

theorem val_negate (b : F32) : val (negate b) = match val b with
    | .nan => .nan | .inf s => .inf (!s) | .fin s m => .fin (!s) m := by
  have he : expo (negate b) = expo b := by
    unfold expo
    apply Nat.eq_of_testBit_eq
    intro i
    simp only [Nat.testBit_mod_two_pow, Nat.testBit_div_two_pow, negate_bit]
    by_cases hi : i < 8
    · simp [show ¬ 31 = i + 23 by omega]
    · simp [hi]
  have hm : mant (negate b) = mant b := by
    unfold mant
    apply Nat.eq_of_testBit_eq
    intro i
    simp only [Nat.testBit_mod_two_pow, negate_bit]
    by_cases hi : i < 23
    · simp [show ¬ 31 = i by omega]
    · simp [hi]
  have hn : neg (negate b) = !neg b := by
    show (negate b).toNat.testBit 31 = !b.toNat.testBit 31
    rw [negate_bit]; simp
  unfold val
  rw [he, hm, hn]
  by_cases h1 : expo b = 255
  · by_cases h2 : mant b = 0 <;> simp [h1, h2]
  · by_cases h2 : expo b = 0 <;> simp [h1, h2]

theorem add_nan {x y : Fl} (h : NotNumber x ∨ NotNumber y) : NotNumber (x + y) := by
  show val (add x.bits y.bits) = .nan
  unfold add
  rcases h with h | h
  · rw [show val x.bits = .nan from h]; exact quiet_nan h
  · by_cases hx : val x.bits = .nan
    · rw [hx]; exact quiet_nan hx
    · rw [show val y.bits = .nan from h]
      cases e : val x.bits with
      | nan => exact absurd e hx
      | inf s => exact quiet_nan h
      | fin s m => exact quiet_nan h

theorem neg_nan {y : Fl} (h : NotNumber y) : NotNumber (-y) := by
  show val (negate y.bits) = .nan
  rw [val_negate, show val y.bits = .nan from h]

theorem sub_nan {x y : Fl} (h : NotNumber x ∨ NotNumber y) : NotNumber (x - y) :=
  add_nan (x := x) (y := -y) (h.imp_right neg_nan)

theorem mul_nan {x y : Fl} (h : NotNumber x ∨ NotNumber y) : NotNumber (x * y) := by
  show val (mul x.bits y.bits) = .nan
  unfold mul
  rcases h with h | h
  · rw [show val x.bits = .nan from h]; exact quiet_nan h
  · by_cases hx : val x.bits = .nan
    · rw [hx]; exact quiet_nan hx
    · rw [show val y.bits = .nan from h]
      cases e : val x.bits with
      | nan => exact absurd e hx
      | inf s => exact quiet_nan h
      | fin s m => exact quiet_nan h

theorem div_nan {x y : Fl} (h : NotNumber x ∨ NotNumber y) : NotNumber (x / y) := by
  show val (F32.div x.bits y.bits) = .nan
  unfold F32.div
  rcases h with h | h
  · rw [show val x.bits = .nan from h]; exact quiet_nan h
  · by_cases hx : val x.bits = .nan
    · rw [hx]; exact quiet_nan hx
    · rw [show val y.bits = .nan from h]
      cases e : val x.bits with
      | nan => exact absurd e hx
      | inf s => exact quiet_nan h
      | fin s m => exact quiet_nan h

theorem sqrt_nan {x : Fl} (h : NotNumber x) : NotNumber x.sqrt := by
  show val (sqrtFull x.bits) = .nan
  unfold sqrtFull
  rw [show val x.bits = .nan from h]; exact quiet_nan h

/-! ## What is not a number stays so -/

/-- C141: a component that is not a number makes the same component of the result not a number. -/
theorem nan_lanes (a b : V4 Fl) (i : Fin 4) (h : NotNumber (a.lane i) ∨ NotNumber (b.lane i)) :
    NotNumber ((a.add b).lane i) ∧ NotNumber ((a.sub b).lane i) ∧ NotNumber ((a.mul b).lane i) ∧ NotNumber ((a.div b).lane i) := by
  fin_cases i <;> exact ⟨add_nan h, sub_nan h, mul_nan h, div_nan h⟩

theorem nan_dot4 (a b : V4 Fl) (i : Fin 4) (h : NotNumber (a.lane i) ∨ NotNumber (b.lane i)) :
    NotNumber (a.dot b) ∧ NotNumber (a.dpPs b) := by
  fin_cases i
  · have h : NotNumber (a.x * b.x) := mul_nan h
    exact ⟨add_nan (.inl (add_nan (.inl (add_nan (.inl h))))), add_nan (.inl (add_nan (.inl h)))⟩
  · have h : NotNumber (a.y * b.y) := mul_nan h
    exact ⟨add_nan (.inl (add_nan (.inl (add_nan (.inr h))))), add_nan (.inl (add_nan (.inr h)))⟩
  · have h : NotNumber (a.z * b.z) := mul_nan h
    exact ⟨add_nan (.inl (add_nan (.inr h))), add_nan (.inr (add_nan (.inl h)))⟩
  · have h : NotNumber (a.w * b.w) := mul_nan h
    exact ⟨add_nan (.inr h), add_nan (.inr (add_nan (.inr h)))⟩

/-- C141: one component that is not a number makes both dot products, both lengths and every component of the normalized vector
not a number. -/
theorem nan_spreads (a b : V4 Fl) (i : Fin 4) (h : NotNumber (a.lane i)) :
    NotNumber (a.dot b) ∧ NotNumber (b.dot a) ∧ NotNumber (a.dpPs b) ∧ NotNumber (b.dpPs a) ∧
    NotNumber (a.length Fl.sqrt) ∧ NotNumber (a.simdLength Fl.sqrt) ∧
    ∀ j, NotNumber ((a.normalize Fl.sqrt).lane j) ∧ NotNumber ((a.simdNormalized Fl.sqrt).lane j) := by
  have h1 := nan_dot4 a b i (.inl h)
  have h2 := nan_dot4 b a i (.inr h)
  have h3 := nan_dot4 a a i (.inl h)
  have l1 : NotNumber (a.length Fl.sqrt) := sqrt_nan h3.1
  have l2 : NotNumber (a.simdLength Fl.sqrt) := sqrt_nan h3.2
  have ne : ∀ l : Fl, NotNumber l → l ≠ 0 := by
    rintro l hl rfl
    exact absurd hl (show ¬ (val 0 = .nan) by decide +kernel)
  refine ⟨h1.1, h2.1, h1.2, h2.2, l1, l2, fun j => ⟨?_, ?_⟩⟩
  · have e : a.normalize Fl.sqrt = a.divS (a.length Fl.sqrt) := by unfold V4.normalize; exact if_neg (ne _ l1)
    rw [e]
    exact (nan_lanes a (.all _) j (.inr (by fin_cases j <;> exact l1))).2.2.2
  · have e : a.simdNormalized Fl.sqrt = a.divS (a.simdLength Fl.sqrt) := by unfold V4.simdNormalized; exact if_neg (ne _ l2)
    rw [e]
    exact (nan_lanes a (.all _) j (.inr (by fin_cases j <;> exact l2))).2.2.2

/-- C141: the same for vectors of two and three components, with the cross product, whose component `i` uses the other two. -/
theorem nan_spreads_small (a b : V2 Fl) (c d : V3 Fl) :
    ((∃ x ∈ a.toList, NotNumber x) → NotNumber (a.dot b) ∧ NotNumber (b.dot a) ∧ NotNumber (a.length Fl.sqrt) ∧
      ∀ x ∈ (a.normalize Fl.sqrt).toList, NotNumber x) ∧
    ((∃ x ∈ c.toList, NotNumber x) → NotNumber (c.dot d) ∧ NotNumber (d.dot c) ∧ NotNumber (c.length Fl.sqrt) ∧
      ∀ x ∈ (c.normalize Fl.sqrt).toList, NotNumber x) ∧
    (∀ e, e = c.cross d ∨ e = d.cross c →
      (NotNumber c.x → NotNumber e.y ∧ NotNumber e.z) ∧ (NotNumber c.y → NotNumber e.x ∧ NotNumber e.z) ∧
      (NotNumber c.z → NotNumber e.x ∧ NotNumber e.y)) := by
  have ne : ∀ l : Fl, NotNumber l → l ≠ 0 := by
    rintro l hl rfl
    exact absurd hl (show ¬ (val 0 = .nan) by decide +kernel)
  have d2 : ∀ a b : V2 Fl, (∃ x ∈ a.toList, NotNumber x) → NotNumber (a.dot b) ∧ NotNumber (b.dot a) := by
    rintro a b ⟨x, hx, hn⟩
    simp only [V2.toList, List.mem_cons, List.not_mem_nil, or_false] at hx
    rcases hx with rfl | rfl
    · exact ⟨add_nan (.inl (mul_nan (.inl hn))), add_nan (.inl (mul_nan (.inr hn)))⟩
    · exact ⟨add_nan (.inr (mul_nan (.inl hn))), add_nan (.inr (mul_nan (.inr hn)))⟩
  have d3 : ∀ a b : V3 Fl, (∃ x ∈ a.toList, NotNumber x) → NotNumber (a.dot b) ∧ NotNumber (b.dot a) := by
    rintro a b ⟨x, hx, hn⟩
    simp only [V3.toList, List.mem_cons, List.not_mem_nil, or_false] at hx
    rcases hx with rfl | rfl | rfl
    · exact ⟨add_nan (.inl (add_nan (.inl (mul_nan (.inl hn))))), add_nan (.inl (add_nan (.inl (mul_nan (.inr hn)))))⟩
    · exact ⟨add_nan (.inl (add_nan (.inr (mul_nan (.inl hn))))), add_nan (.inl (add_nan (.inr (mul_nan (.inr hn)))))⟩
    · exact ⟨add_nan (.inr (mul_nan (.inl hn))), add_nan (.inr (mul_nan (.inr hn)))⟩
  refine ⟨fun h => ?_, fun h => ?_, ?_⟩
  · have l : NotNumber (a.length Fl.sqrt) := sqrt_nan (d2 a a h).1
    refine ⟨(d2 a b h).1, (d2 a b h).2, l, ?_⟩
    rw [show a.normalize Fl.sqrt = a.divS (a.length Fl.sqrt) by unfold V2.normalize; exact if_neg (ne _ l)]
    intro x hx
    simp only [V2.divS, V2.div, V2.all, V2.toList, List.mem_cons, List.not_mem_nil, or_false] at hx
    rcases hx with rfl | rfl <;> exact div_nan (.inr l)
  · have l : NotNumber (c.length Fl.sqrt) := sqrt_nan (d3 c c h).1
    refine ⟨(d3 c d h).1, (d3 c d h).2, l, ?_⟩
    rw [show c.normalize Fl.sqrt = c.divS (c.length Fl.sqrt) by unfold V3.normalize; exact if_neg (ne _ l)]
    intro x hx
    simp only [V3.divS, V3.div, V3.all, V3.toList, List.mem_cons, List.not_mem_nil, or_false] at hx
    rcases hx with rfl | rfl | rfl <;> exact div_nan (.inr l)
  · rintro e (rfl | rfl)
    · exact ⟨fun h => ⟨sub_nan (.inr (mul_nan (.inl h))), sub_nan (.inl (mul_nan (.inl h)))⟩,
        fun h => ⟨sub_nan (.inl (mul_nan (.inl h))), sub_nan (.inr (mul_nan (.inl h)))⟩,
        fun h => ⟨sub_nan (.inr (mul_nan (.inl h))), sub_nan (.inl (mul_nan (.inl h)))⟩⟩
    · exact ⟨fun h => ⟨sub_nan (.inl (mul_nan (.inr h))), sub_nan (.inr (mul_nan (.inr h)))⟩,
        fun h => ⟨sub_nan (.inr (mul_nan (.inr h))), sub_nan (.inl (mul_nan (.inr h)))⟩,
        fun h => ⟨sub_nan (.inl (mul_nan (.inr h))), sub_nan (.inr (mul_nan (.inr h)))⟩⟩

/-- C141: the component operations of the smaller vectors are those of the larger ones, so everything below about components of four
component vectors holds for them. -/
theorem small_lanes (a b : V2 Fl) (c d : V3 Fl) (x y z w : Fl) :
    (V4.add ⟨a.x, a.y, x, y⟩ ⟨b.x, b.y, z, w⟩).toV2 = a.add b ∧ (V4.sub ⟨a.x, a.y, x, y⟩ ⟨b.x, b.y, z, w⟩).toV2 = a.sub b ∧
    (V4.mul ⟨a.x, a.y, x, y⟩ ⟨b.x, b.y, z, w⟩).toV2 = a.mul b ∧ (V4.div ⟨a.x, a.y, x, y⟩ ⟨b.x, b.y, z, w⟩).toV2 = a.div b ∧
    (V4.add ⟨c.x, c.y, c.z, y⟩ ⟨d.x, d.y, d.z, w⟩).toV3 = c.add d ∧ (V4.sub ⟨c.x, c.y, c.z, y⟩ ⟨d.x, d.y, d.z, w⟩).toV3 = c.sub d ∧
    (V4.mul ⟨c.x, c.y, c.z, y⟩ ⟨d.x, d.y, d.z, w⟩).toV3 = c.mul d ∧ (V4.div ⟨c.x, c.y, c.z, y⟩ ⟨d.x, d.y, d.z, w⟩).toV3 = c.div d :=
  ⟨rfl, rfl, rfl, rfl, rfl, rfl, rfl, rfl⟩

/-- A vector of three with one component that is not a number. -/
example : ∃ x ∈ (⟨1, ⟨0x7fc00000⟩, 0⟩ : V3 Fl).toList, NotNumber x := ⟨⟨0x7fc00000⟩, by simp [V3.toList], by unfold NotNumber; decide +kernel⟩

/-- C141: an entry that is not a number spoils its row of the product when it is in the left factor, and its column when it is in the
right one. -/
theorem nan_product (a b : Mat Fl) (i j k : Fin 4) :
    (NotNumber (a.get i k) → NotNumber ((a.mul b).get i j)) ∧ (NotNumber (b.get k j) → NotNumber ((a.mul b).get i j)) := by
  rw [mul_get]
  have ha : (a.row i).lane k = a.get i k := by fin_cases i <;> fin_cases k <;> rfl
  have hb : (b.transposeFull.row j).lane k = b.get k j := by fin_cases j <;> fin_cases k <;> rfl
  exact ⟨fun h => (nan_dot4 _ _ k (.inl (by rw [ha]; exact h))).2, fun h => (nan_dot4 _ _ k (.inr (by rw [hb]; exact h))).2⟩

/-! ## Divisions by zero, infinities -/

/-- C141: dividing by a zero component: not a number for zero and for what is not a number, otherwise infinite with the product of the
signs. Dividing by infinity gives zero. No division traps. -/
theorem div_zero (a b : V4 Fl) (i : Fin 4) (t : Bool) :
    (IsZero (b.lane i) t →
      (∀ s, IsZero (a.lane i) s → NotNumber ((a.div b).lane i)) ∧
      (∀ s m, val (a.lane i).bits = .fin s m → m ≠ 0 → Infinite ((a.div b).lane i) (s != t)) ∧
      (∀ s, Infinite (a.lane i) s → Infinite ((a.div b).lane i) (s != t))) ∧
    (Infinite (b.lane i) t →
      (∀ s m, val (a.lane i).bits = .fin s m → IsZero ((a.div b).lane i) (s != t)) ∧
      (∀ s, Infinite (a.lane i) s → NotNumber ((a.div b).lane i))) := by
  have key : ∀ x y : Fl, (IsZero y t →
      (∀ s, IsZero x s → NotNumber (x / y)) ∧ (∀ s m, val x.bits = .fin s m → m ≠ 0 → Infinite (x / y) (s != t)) ∧
      (∀ s, Infinite x s → Infinite (x / y) (s != t))) ∧
    (Infinite y t → (∀ s m, val x.bits = .fin s m → IsZero (x / y) (s != t)) ∧ (∀ s, Infinite x s → NotNumber (x / y))) := by
    intro x y
    have n : val (0xffc00000#32) = .nan := by decide +kernel
    have p : val (0x7f800000#32) = .inf false := by decide +kernel
    have q : val (0xff800000#32) = .inf true := by decide +kernel
    have z : val (0x00000000#32) = .fin false 0 := by decide +kernel
    have w : val (0x80000000#32) = .fin true 0 := by decide +kernel
    have unf : (x / y).bits = F32.div x.bits y.bits := rfl
    refine ⟨fun hy => ⟨fun s hx => ?_, fun s m hx hm => ?_, fun s hx => ?_⟩, fun hy => ⟨fun s m hx => ?_, fun s hx => ?_⟩⟩
    · unfold NotNumber; rw [unf]; unfold F32.div
      rw [show val x.bits = _ from hx, show val y.bits = _ from hy]; simpa using n
    · unfold Infinite; rw [unf]; unfold F32.div
      rw [show val x.bits = _ from hx, show val y.bits = _ from hy]
      cases s <;> cases t <;> simp [hm, p, q]
    · unfold Infinite; rw [unf]; unfold F32.div
      rw [show val x.bits = _ from hx, show val y.bits = _ from hy]
      cases s <;> cases t <;> simp [p, q]
    · unfold IsZero; rw [unf]; unfold F32.div
      rw [show val x.bits = _ from hx, show val y.bits = _ from hy]
      cases s <;> cases t <;> simp [z, w]
    · unfold NotNumber; rw [unf]; unfold F32.div
      rw [show val x.bits = _ from hx, show val y.bits = _ from hy]; exact n
  fin_cases i <;> exact key _ _

/-- C141: sums, differences and products with infinite components. -/
theorem with_infinities (a b : V4 Fl) (i : Fin 4) (s : Bool) (h : Infinite (a.lane i) s) :
    (∀ t m, val (b.lane i).bits = .fin t m → Infinite ((a.add b).lane i) s ∧ Infinite ((b.add a).lane i) s ∧
      Infinite ((a.sub b).lane i) s ∧ Infinite ((b.sub a).lane i) (!s) ∧
      (m ≠ 0 → Infinite ((a.mul b).lane i) (s != t) ∧ Infinite ((b.mul a).lane i) (s != t)) ∧
      (m = 0 → NotNumber ((a.mul b).lane i) ∧ NotNumber ((b.mul a).lane i))) ∧
    (Infinite (b.lane i) s → Infinite ((a.add b).lane i) s ∧ NotNumber ((a.sub b).lane i) ∧ Infinite ((a.mul b).lane i) false) ∧
    (Infinite (b.lane i) (!s) → NotNumber ((a.add b).lane i) ∧ Infinite ((a.sub b).lane i) s ∧ Infinite ((a.mul b).lane i) true) := by
  have key : ∀ x y : Fl, Infinite x s →
    (∀ t m, val y.bits = .fin t m → Infinite (x + y) s ∧ Infinite (y + x) s ∧ Infinite (x - y) s ∧ Infinite (y - x) (!s) ∧
      (m ≠ 0 → Infinite (x * y) (s != t) ∧ Infinite (y * x) (s != t)) ∧ (m = 0 → NotNumber (x * y) ∧ NotNumber (y * x))) ∧
    (Infinite y s → Infinite (x + y) s ∧ NotNumber (x - y) ∧ Infinite (x * y) false) ∧
    (Infinite y (!s) → NotNumber (x + y) ∧ Infinite (x - y) s ∧ Infinite (x * y) true) := by
    intro x y hx
    have n : val (0xffc00000#32) = .nan := by decide +kernel
    have p : val (0x7f800000#32) = .inf false := by decide +kernel
    have q : val (0xff800000#32) = .inf true := by decide +kernel
    have hx' : val x.bits = .inf s := hx
    have nx : val (negate x.bits) = .inf (!s) := by rw [val_negate, hx']
    unfold Infinite NotNumber
    refine ⟨fun t m hy => ?_, fun hy => ?_, fun hy => ?_⟩
    · have ny : val (negate y.bits) = .fin (!t) m := by rw [val_negate, hy]
      refine ⟨?_, ?_, ?_, ?_, fun hm => ⟨?_, ?_⟩, fun hm => ⟨?_, ?_⟩⟩
      · show val (add x.bits y.bits) = _; unfold add; rw [hx', hy]; exact hx'
      · show val (add y.bits x.bits) = _; unfold add; rw [hx', hy]; exact hx'
      · show val (add x.bits (negate y.bits)) = _; unfold add; rw [hx', ny]; exact hx'
      · show val (add y.bits (negate x.bits)) = _; unfold add; rw [nx, hy]; exact nx
      · show val (mul x.bits y.bits) = _; unfold mul; rw [hx', hy]; cases s <;> cases t <;> simp [hm, p, q]
      · show val (mul y.bits x.bits) = _; unfold mul; rw [hx', hy]; cases s <;> cases t <;> simp [hm, p, q]
      · show val (mul x.bits y.bits) = _; unfold mul; rw [hx', hy]; simp [hm, n]
      · show val (mul y.bits x.bits) = _; unfold mul; rw [hx', hy]; simp [hm, n]
    · have ny : val (negate y.bits) = .inf (!s) := by rw [val_negate, hy]
      refine ⟨?_, ?_, ?_⟩
      · show val (add x.bits y.bits) = _; unfold add; rw [hx', hy]; simpa using hx'
      · show val (add x.bits (negate y.bits)) = _; unfold add; rw [hx', ny]; cases s <;> simpa using n
      · show val (mul x.bits y.bits) = _; unfold mul; rw [hx', hy]; simpa using p
    · have ny : val (negate y.bits) = .inf s := by rw [val_negate, hy]; simp
      refine ⟨?_, ?_, ?_⟩
      · show val (add x.bits y.bits) = _; unfold add; rw [hx', hy]; cases s <;> simpa using n
      · show val (add x.bits (negate y.bits)) = _; unfold add; rw [hx', ny]; simpa using hx'
      · show val (mul x.bits y.bits) = _; unfold mul; rw [hx', hy]; cases s <;> simpa using q
  fin_cases i <;> exact key _ _ h

/-! ## Order -/

theorem fin_place (s : Bool) (m : Nat) : (((if s then - (m : ℝ) else (m : ℝ)) / 2 ^ 149 : ℝ)) = (((if s then - (m : Int) else m) : Int) : ℝ) / 2 ^ 149 := by
  cases s <;> simp

theorem places_lt (s t : Bool) (m n : Nat) :
    ((if s then - (m : ℝ) else (m : ℝ)) / 2 ^ 149 < (if t then - (n : ℝ) else (n : ℝ)) / 2 ^ 149) ↔
    (if s then - (m : Int) else m) < (if t then - (n : Int) else n) := by
  rw [fin_place, fin_place, div_lt_div_iff_of_pos_right (by positivity), Int.cast_lt]

theorem places_le (s t : Bool) (m n : Nat) :
    ((if s then - (m : ℝ) else (m : ℝ)) / 2 ^ 149 ≤ (if t then - (n : ℝ) else (n : ℝ)) / 2 ^ 149) ↔
    (if s then - (m : Int) else m) ≤ (if t then - (n : Int) else n) := by
  rw [fin_place, fin_place, div_le_div_iff_of_pos_right (by positivity), Int.cast_le]

/-- C141: the comparisons of float components, for every bit pattern: the order of the number line with both infinities, and false as soon
as one side is not a number. -/
theorem order_line (x y : Fl) :
    (x < y ↔ ∃ p q, place x = some p ∧ place y = some q ∧ p < q) ∧ (x ≤ y ↔ ∃ p q, place x = some p ∧ place y = some q ∧ p ≤ q) := by
  show (less x.bits y.bits = true ↔ _) ∧ (lessEq x.bits y.bits = true ↔ _)
  unfold less lessEq place
  cases hx : val x.bits with
  | nan => simp
  | inf s =>
    cases hy : val y.bits with
    | nan => cases s <;> simp
    | inf t => cases s <;> cases t <;> simp
    | fin t n =>
      cases s <;> simp only [Option.some.injEq, exists_and_left, exists_eq_left', EReal.bot_lt_coe, bot_le, not_top_lt, Bool.false_eq_true, false_iff] <;>
        simp only [and_self, not_le, EReal.coe_lt_top, not_false_eq_true]
  | fin s m =>
    cases hy : val y.bits with
    | nan => simp
    | inf t =>
      cases t <;> simp only [Option.some.injEq, exists_and_left, exists_eq_left', EReal.coe_lt_top, le_top, not_lt_bot, Bool.not_false, Bool.not_true, Bool.false_eq_true, false_iff] <;>
        simp only [and_self, not_le, EReal.bot_lt_coe, not_false_eq_true]
    | fin t n =>
      simp only [Option.some.injEq, exists_and_left, exists_eq_left', EReal.coe_lt_coe_iff, EReal.coe_le_coe_iff, places_lt, places_le, decide_eq_true_eq, and_self]

/-- The theorems apply: a vector with 1, an infinity, what is not a number and a zero. -/
example : ∃ v : V4 Fl, val (v.lane 0).bits = .fin false (2 ^ 149) ∧ Infinite (v.lane 1) true ∧ NotNumber (v.lane 2) ∧ IsZero (v.lane 3) true :=
  ⟨⟨⟨0x3f800000⟩, ⟨0xff800000⟩, ⟨0x7fc00000⟩, ⟨0x80000000⟩⟩, by decide +kernel, by unfold Infinite; decide +kernel,
    by unfold NotNumber; decide +kernel, by unfold IsZero; decide +kernel⟩

end PreCore.Vec
