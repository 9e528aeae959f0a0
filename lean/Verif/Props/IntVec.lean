import Verif.Model.IntVec
import Mathlib.Tactic.Linarith
import Mathlib.Tactic.NormNum
import Mathlib.Tactic.Ring
import Mathlib.Tactic.Push
/-!
# C151: integer vectors
-/
namespace PreCore.IntVec
open PreCore PreCore.Vec

/-! ## Specification -/

/-- `z` is a value of the element type. -/
def Fits (t : IT) (z : Int) : Prop :=
  match t with
  | .i8 => -128 ≤ z ∧ z ≤ 127
  | .u8 => 0 ≤ z ∧ z ≤ 255
  | .i16 => -32768 ≤ z ∧ z ≤ 32767
  | .u16 => 0 ≤ z ∧ z ≤ 65535
  | .i32 => -2147483648 ≤ z ∧ z ≤ 2147483647
  | .u32 => 0 ≤ z ∧ z ≤ 4294967295

instance (t : IT) (z : Int) : Decidable (Fits t z) := by cases t <;> unfold Fits <;> infer_instance

/-- The number of values of the type. -/
def card (t : IT) : Int :=
  match t with | .i8 => 256 | .u8 => 256 | .i16 => 65536 | .u16 => 65536 | .i32 => 4294967296 | .u32 => 4294967296

/-- `r` is the value of the element type that equals `z` modulo the number of its values. -/
def Reduces (t : IT) (z r : Int) : Prop := Fits t r ∧ ∃ k : Int, r = z + k * card t

/-! ## Conversions -/

theorem wrap_reduces (t : IT) (z : Int) : Reduces t z (wrap t z) := by
  cases t <;> simp only [Reduces, wrap, Fits, card, IT.signed, IT.bits, if_true, Bool.false_eq_true, if_false]
  case i8 =>
    have := Int.bmod_def z (2 ^ 8)
    refine ⟨by norm_num at this ⊢; split at this <;> omega, ?_⟩
    norm_num at this ⊢
    split at this
    · exact ⟨-(z / 256), by omega⟩
    · exact ⟨-(z / 256) - 1, by omega⟩
  case i16 =>
    have := Int.bmod_def z (2 ^ 16)
    refine ⟨by norm_num at this ⊢; split at this <;> omega, ?_⟩
    norm_num at this ⊢
    split at this
    · exact ⟨-(z / 65536), by omega⟩
    · exact ⟨-(z / 65536) - 1, by omega⟩
  case i32 =>
    have := Int.bmod_def z (2 ^ 32)
    refine ⟨by norm_num at this ⊢; split at this <;> omega, ?_⟩
    norm_num at this ⊢
    split at this
    · exact ⟨-(z / 4294967296), by omega⟩
    · exact ⟨-(z / 4294967296) - 1, by omega⟩
  case u8 => exact ⟨by norm_num; omega, -(z / 256), by norm_num; omega⟩
  case u16 => exact ⟨by norm_num; omega, -(z / 65536), by norm_num; omega⟩
  case u32 => exact ⟨by norm_num; omega, -(z / 4294967296), by norm_num; omega⟩

theorem reduces_unique {t : IT} {z r s : Int} (h : Reduces t z r) (h' : Reduces t z s) : r = s := by
  obtain ⟨hf, k, hk⟩ := h; obtain ⟨hf', l, hl⟩ := h'
  cases t <;> simp only [Fits, card] at * <;> omega

theorem wrap_fits {t : IT} {z : Int} (h : Fits t z) : wrap t z = z :=
  reduces_unique (wrap_reduces t z) ⟨h, 0, by ring⟩

theorem wrap_eq_iff {t : IT} {z r : Int} : wrap t z = r ↔ Reduces t z r :=
  ⟨fun h => h ▸ wrap_reduces t z, fun h => reduces_unique (wrap_reduces t z) h⟩

theorem inType_i32 (z : Int) : inType .i32 z = if Fits .i32 z then some z else none := by
  simp only [inType, IT.signed, IT.lo, IT.hi, IT.bits, if_true, Fits]; norm_num

theorem inType_u32 (z : Int) : inType .u32 z = some (wrap .u32 z) := by
  simp [inType, IT.signed]

theorem fits_promote {t : IT} {z : Int} (h : Fits t z) : Fits t.promote z := by
  cases t <;> simp only [Fits, IT.promote] at * <;> omega

/-! ## Components -/

/-- Every operator acts component by component; it is undefined as soon as one component is. -/
theorem int_lanes (t : IT) (f : IT → Int → Int → Option Int) (a b : V2 Int) (c d : V3 Int) (e g : V4 Int) :
    (bin2 t f a b).map V2.toList = (List.zipWith (elem t f) a.toList b.toList).mapM id ∧
    (bin3 t f c d).map V3.toList = (List.zipWith (elem t f) c.toList d.toList).mapM id ∧
    (bin4 t f e g).map V4.toList = (List.zipWith (elem t f) e.toList g.toList).mapM id := by
  refine ⟨?_, ?_, ?_⟩
  · simp only [bin2, V2.toList, List.zipWith]
    cases elem t f a.x b.x <;> cases elem t f a.y b.y <;> simp [V2.toList]
  · simp only [bin3, V3.toList, List.zipWith]
    cases elem t f c.x d.x <;> cases elem t f c.y d.y <;> cases elem t f c.z d.z <;> simp [V3.toList]
  · simp only [bin4, V4.toList, List.zipWith]
    cases elem t f e.x g.x <;> cases elem t f e.y g.y <;> cases elem t f e.z g.z <;> cases elem t f e.w g.w <;> simp [V4.toList]

example : bin3 .u8 addP ⟨200, 1, 2⟩ ⟨100, 1, 1⟩ = some ⟨44, 2, 3⟩ ∧ bin2 .i32 addP ⟨2147483647, 0⟩ ⟨1, 0⟩ = none := by decide +kernel

/-- Sum, difference and product are exact whenever the exact value is one of the element type. -/
theorem int_exact (t : IT) (x y : Int) :
    (Fits t (x + y) → elem t addP x y = some (x + y)) ∧ (Fits t (x - y) → elem t subP x y = some (x - y)) ∧
    (Fits t (x * y) → elem t mulP x y = some (x * y)) := by
  have key : ∀ z, Fits t z → (inType t.promote z).map (wrap t) = some z := by
    intro z hz
    have hp := fits_promote hz
    by_cases hu : t = .u32
    · subst hu; simp only [IT.promote, inType_u32, Option.map_some, wrap_fits hz]
    · have : t.promote = .i32 := by cases t <;> simp_all [IT.promote]
      rw [this] at hp ⊢
      simp [inType_i32, hp, wrap_fits hz]
  exact ⟨key _, key _, key _⟩

/-- Types narrower than `int` and `uint32`: sums and differences are always defined and wrap; so do products, except for `uint16`. -/
theorem int_wraps_partial (t : IT) (ht : t ≠ .i32) (x y : Int) (hx : Fits t x) (hy : Fits t y) :
    (∃ r, elem t addP x y = some r ∧ Reduces t (x + y) r) ∧ (∃ r, elem t subP x y = some r ∧ Reduces t (x - y) r) ∧
    (t ≠ .u16 → ∃ r, elem t mulP x y = some r ∧ Reduces t (x * y) r) := by
  have key : ∀ z, (t = .u32 ∨ Fits .i32 z) → ∃ r, (inType t.promote z).map (wrap t) = some r ∧ Reduces t z r := by
    intro z hz
    refine ⟨wrap t z, ?_, wrap_reduces t z⟩
    by_cases hu : t = .u32
    · subst hu
      have := (wrap_reduces .u32 z).1
      simp only [IT.promote, inType_u32, Option.map_some, wrap_fits this]
    · have hp : t.promote = .i32 := by cases t <;> simp_all [IT.promote]
      have hz := hz.resolve_left hu
      simp [hp, inType_i32, hz]
  refine ⟨key _ ?_, key _ ?_, fun h16 => key _ ?_⟩
  · cases t <;> simp_all only [Fits, ne_eq, not_true, reduceCtorEq, or_false, true_or, false_or] <;> omega
  · cases t <;> simp_all only [Fits, ne_eq, not_true, reduceCtorEq, or_false, true_or, false_or] <;> omega
  · cases t <;> simp_all only [Fits, ne_eq, not_true, reduceCtorEq, or_false, true_or, false_or] <;>
      constructor <;> nlinarith [hx.1, hx.2, hy.1, hy.2]

/-- `uint16` vectors: a product of components above `INT_MAX` is undefined, as the operands are promoted to `int`. -/
theorem mul_u16_violated (x y : Int) (hx : Fits .u16 x) (hy : Fits .u16 y) :
    elem .u16 mulP x y = none ↔ 2147483648 ≤ x * y := by
  have h0 : 0 ≤ x * y := by simp only [Fits] at hx hy; nlinarith
  simp only [elem, mulP, IT.promote, inType_i32, Option.map_eq_none_iff]
  by_cases h : Fits .i32 (x * y)
  · rw [if_pos h]; simp only [Fits] at h; simp; omega
  · rw [if_neg h]; simp only [Fits] at h; simp; omega

example : Fits .u16 65535 ∧ (2147483648 : Int) ≤ 65535 * 65535 ∧ bin2 .u16 mulP ⟨65535, 1⟩ ⟨65535, 1⟩ = none := by decide +kernel

/-- `int32` vectors: undefined exactly where the exact value does not fit. -/
theorem i32_defined (x y : Int) :
    (elem .i32 addP x y = none ↔ ¬ Fits .i32 (x + y)) ∧ (elem .i32 subP x y = none ↔ ¬ Fits .i32 (x - y)) ∧
    (elem .i32 mulP x y = none ↔ ¬ Fits .i32 (x * y)) := by
  simp only [elem, addP, subP, mulP, IT.promote, inType_i32, Option.map_eq_none_iff]
  refine ⟨?_, ?_, ?_⟩ <;> split <;> simp_all

/-- Division: undefined for a divisor 0, and for the least `int32` over -1; otherwise the quotient towards zero, which only the
least `int8` and `int16` over -1 turn around. -/
theorem int_div (t : IT) (x y : Int) (hx : Fits t x) (hy : Fits t y) :
    (elem t divP x y = none ↔ y = 0 ∨ t = .i32 ∧ x = -2147483648 ∧ y = -1) ∧
    (∀ r, elem t divP x y = some r → Reduces t (x.tdiv y) r) ∧
    (y ≠ 0 → (y ≠ -1 ∨ x ≠ t.lo) → elem t divP x y = some (x.tdiv y)) := by
  by_cases h0 : y = 0
  · subst h0; simp [elem, divP]
  have hq : ∀ q, x.tdiv y = q → q * y + x.tmod y = x := fun q h => by rw [← h, mul_comm]; exact Int.mul_tdiv_add_tmod x y
  have habs : |x.tdiv y| ≤ |x| := by
    rw [Int.abs_eq_natAbs, Int.abs_eq_natAbs, Int.natAbs_tdiv]; exact_mod_cast Nat.div_le_self _ _
  have hm1 : y = -1 → x.tdiv y = -x := by rintro rfl; simp [Int.tdiv_neg]
  have hnn : 0 ≤ x → 0 ≤ y → 0 ≤ x.tdiv y := fun a b => Int.tdiv_nonneg a b
  have hstr : y ≠ -1 → Fits t (x.tdiv y) := by
    intro h1
    by_cases hy1 : y = 1
    · subst hy1; simpa using hx
    have h2 : 2 ≤ y.natAbs := by omega
    have hle : 2 * (x.tdiv y).natAbs ≤ x.natAbs := by
      rw [Int.natAbs_tdiv]
      calc 2 * (x.natAbs / y.natAbs) ≤ y.natAbs * (x.natAbs / y.natAbs) := Nat.mul_le_mul_right _ h2
        _ ≤ x.natAbs := Nat.mul_div_le _ _
    cases t <;> simp only [Fits] at * <;> first | omega | (have := hnn hx.1 hy.1; omega)
  have hlo : x ≠ t.lo → Fits t (x.tdiv y) := by
    intro h1
    by_cases hy1 : y = -1
    · rw [hm1 hy1]
      cases t <;> simp only [Fits, IT.lo, IT.signed, IT.bits, if_true, Bool.false_eq_true, if_false] at * <;> norm_num at h1 <;> omega
    · exact hstr hy1
  have hfit : (y ≠ -1 ∨ x ≠ t.lo) → Fits t (x.tdiv y) := fun h => h.elim hstr hlo
  have hval : elem t divP x y = (inType t.promote (x.tdiv y)).map (wrap t) := by simp [elem, divP, h0]
  refine ⟨?_, ?_, ?_⟩
  · rw [hval]
    by_cases hu : t = .u32
    · subst hu; simp [IT.promote, inType_u32, h0]
    · have hp : t.promote = .i32 := by cases t <;> simp_all [IT.promote]
      simp only [hp, inType_i32, Option.map_eq_none_iff, h0, false_or]
      constructor
      · intro h
        have hn : ¬ Fits .i32 (x.tdiv y) := by intro hf; simp [hf] at h
        by_cases hy1 : y = -1
        · rw [hm1 hy1] at hn
          cases t <;> simp only [Fits] at * <;> first | omega | (exact ⟨trivial, by omega, hy1⟩)
        · have := fits_promote (hstr hy1); rw [hp] at this; exact absurd this hn
      · rintro ⟨_, hx1, hy1⟩
        rw [hm1 hy1, hx1]; decide
  · intro r hr
    rw [hval] at hr
    by_cases hu : t = .u32
    · subst hu
      have := (wrap_reduces .u32 (x.tdiv y)).1
      simp only [IT.promote, inType_u32, Option.map_some, wrap_fits this, Option.some.injEq] at hr
      exact hr ▸ wrap_reduces _ _
    · have hp : t.promote = .i32 := by cases t <;> simp_all [IT.promote]
      simp only [hp, inType_i32] at hr
      split at hr
      · simp only [Option.map_some, Option.some.injEq] at hr; exact hr ▸ wrap_reduces _ _
      · simp at hr
  · intro _ h
    have hf := hfit h
    have hf' := fits_promote hf
    rw [hval]
    by_cases hu : t = .u32
    · subst hu; simp only [IT.promote, inType_u32, Option.map_some, wrap_fits hf]
    · have hp : t.promote = .i32 := by cases t <;> simp_all [IT.promote]
      rw [hp] at hf' ⊢
      simp [inType_i32, hf', wrap_fits hf]

example : elem .i8 divP (-7) 2 = some (-3) ∧ elem .i8 divP (-128) (-1) = some (-128) ∧ elem .u8 divP 7 0 = none ∧
    elem .i32 divP (-2147483648) (-1) = none := by decide +kernel

/-! ## Bits -/

theorem ofInt_wrap (t : IT) (z : Int) : BitVec.ofInt t.bits (wrap t z) = BitVec.ofInt t.bits z := by
  obtain ⟨_, k, hk⟩ := wrap_reduces t z
  apply BitVec.eq_of_toNat_eq
  rw [BitVec.toNat_ofInt, BitVec.toNat_ofInt, hk]
  cases t <;> simp only [IT.bits, card] <;> norm_num

theorem ofInt_ofBits (p : IT) (b : BitVec p.bits) : BitVec.ofInt p.bits (ofBits p b) = b := by
  unfold ofBits; split
  · exact BitVec.ofInt_toInt
  · simp

theorem ofInt_ofBits_promote (t : IT) (b : BitVec t.promote.bits) :
    BitVec.ofInt t.bits (ofBits t.promote b) = b.setWidth t.bits := by
  apply BitVec.eq_of_toNat_eq
  have h := congrArg BitVec.toNat (ofInt_ofBits t.promote b)
  rw [BitVec.toNat_ofInt] at h
  rw [BitVec.toNat_ofInt, BitVec.toNat_setWidth, ← h]
  cases t <;> simp only [IT.bits, IT.promote] <;> norm_num <;> omega

theorem setWidth_ofInt_promote (t : IT) (z : Int) : (BitVec.ofInt t.promote.bits z).setWidth t.bits = BitVec.ofInt t.bits z := by
  apply BitVec.eq_of_toNat_eq
  rw [BitVec.toNat_ofInt, BitVec.toNat_setWidth, BitVec.toNat_ofInt]
  cases t <;> simp only [IT.bits, IT.promote] <;> norm_num <;> omega

/-- `&` and `|` act on the bits of every component and are always defined. -/
theorem int_bits (t : IT) (x y : Int) :
    (∃ r, elem t andP x y = some r ∧ Fits t r ∧ BitVec.ofInt t.bits r = BitVec.ofInt t.bits x &&& BitVec.ofInt t.bits y) ∧
    (∃ r, elem t orP x y = some r ∧ Fits t r ∧ BitVec.ofInt t.bits r = BitVec.ofInt t.bits x ||| BitVec.ofInt t.bits y) := by
  refine ⟨⟨_, rfl, (wrap_reduces t _).1, ?_⟩, ⟨_, rfl, (wrap_reduces t _).1, ?_⟩⟩
  · rw [ofInt_wrap, ofInt_ofBits_promote, BitVec.setWidth_and, setWidth_ofInt_promote, setWidth_ofInt_promote]
  · rw [ofInt_wrap, ofInt_ofBits_promote, BitVec.setWidth_or, setWidth_ofInt_promote, setWidth_ofInt_promote]

example : bin2 .i8 andP ⟨-1, 0x7f⟩ ⟨0x55, -128⟩ = some ⟨0x55, 0⟩ ∧ bin2 .i8 orP ⟨-128, 1⟩ ⟨1, 2⟩ = some ⟨-127, 3⟩ := by decide +kernel

theorem ofBits_or_neg (p : IT) (hp : p = .i32 ∨ p = .u32) (x y : Int) (hx : Fits p x) (hy : Fits p y) :
    Fits p (ofBits p (BitVec.ofInt p.bits x ||| BitVec.ofInt p.bits y)) ∧
    (ofBits p (BitVec.ofInt p.bits x ||| BitVec.ofInt p.bits y) < 0 ↔ x < 0 ∨ y < 0) := by
  rcases hp with rfl | rfl
  · have hm : ∀ z : Int, Fits .i32 z → ((BitVec.ofInt 32 z).msb = decide (z < 0)) := by
      intro z hz
      rw [BitVec.msb_eq_toInt, BitVec.toInt_ofInt]
      have := wrap_fits hz
      simp only [wrap, IT.signed, IT.bits, if_true] at this
      rw [show ((2 : Nat) ^ 32) = 2 ^ 32 from rfl]
      norm_num at this ⊢
      rw [this]
    have hlt : ∀ b : BitVec 32, b.toInt < 0 ↔ b.msb = true := by intro b; rw [BitVec.msb_eq_toInt]; simp
    refine ⟨?_, ?_⟩
    · show Fits .i32 (BitVec.toInt _)
      have h1 := BitVec.toInt_lt (x := BitVec.ofInt IT.i32.bits x ||| BitVec.ofInt IT.i32.bits y)
      have h2 := BitVec.le_toInt (x := BitVec.ofInt IT.i32.bits x ||| BitVec.ofInt IT.i32.bits y)
      simp only [Fits, IT.bits] at h1 h2 ⊢
      norm_num at h1 h2
      omega
    · show (BitVec.ofInt 32 x ||| BitVec.ofInt 32 y).toInt < 0 ↔ _
      rw [hlt, BitVec.msb_or]
      show ((BitVec.ofInt 32 x).msb || (BitVec.ofInt 32 y).msb) = true ↔ _
      rw [hm x hx, hm y hy]; simp
  · refine ⟨?_, ?_⟩
    · show Fits .u32 (BitVec.toNat _ : Int)
      have := (BitVec.ofInt IT.u32.bits x ||| BitVec.ofInt IT.u32.bits y).isLt
      simp only [Fits, IT.bits] at this ⊢
      norm_num at this; omega
    · show ((BitVec.toNat _ : Nat) : Int) < 0 ↔ _
      simp only [Fits] at hx hy
      constructor
      · intro h; exact absurd (Int.natCast_nonneg _) (not_le.mpr h)
      · intro h; omega

/-- `Sign` is -1 when a component is negative, otherwise 1; always 1 for unsigned elements. -/
theorem int_sign (t : IT) (a : V2 Int) (b : V3 Int) (c : V4 Int) (ha : ∀ l ∈ a.toList, Fits t l) (hb : ∀ l ∈ b.toList, Fits t l)
    (hc : ∀ l ∈ c.toList, Fits t l) :
    sign2 t a = some (if ∃ l ∈ a.toList, l < 0 then -1 else 1) ∧ sign3 t b = some (if ∃ l ∈ b.toList, l < 0 then -1 else 1) ∧
    sign4 t c = some (if ∃ l ∈ c.toList, l < 0 then -1 else 1) := by
  have hp : t.promote = .i32 ∨ t.promote = .u32 := by cases t <;> simp [IT.promote]
  simp only [V2.toList, V3.toList, V4.toList, List.mem_cons, List.not_mem_nil, or_false, forall_eq_or_imp, forall_eq] at ha hb hc
  have key := ofBits_or_neg t.promote hp
  refine ⟨?_, ?_, ?_⟩
  · have h1 := key a.x a.y (fits_promote ha.1) (fits_promote ha.2)
    simp [sign2, orP, h1.2, V2.toList]
  · have h1 := key b.x b.y (fits_promote hb.1) (fits_promote hb.2.1)
    have h2 := key _ b.z h1.1 (fits_promote hb.2.2)
    simp [sign3, orP, h2.2, h1.2, V3.toList, or_assoc]
  · have h1 := key c.x c.y (fits_promote hc.1) (fits_promote hc.2.1)
    have h2 := key _ c.z h1.1 (fits_promote hc.2.2.1)
    have h3 := key _ c.w h2.1 (fits_promote hc.2.2.2)
    simp [sign4, orP, h3.2, h2.2, h1.2, V4.toList, or_assoc]

example : sign3 .i16 ⟨5, -1, 7⟩ = some (-1) ∧ sign3 .u16 ⟨5, 65535, 7⟩ = some 1 := by decide +kernel

/-! ## Shifts -/

/-- The width in which a component is shifted. -/
theorem promote_bits (t : IT) : t.promote.bits = 32 := by cases t <;> rfl

/-- `>>` is defined for counts from 0 to 31 and divides by a power of two, rounding down. -/
theorem int_shr (t : IT) (x k : Int) (hx : Fits t x) :
    (elem t shrP x k = none ↔ k < 0 ∨ 32 ≤ k) ∧ (0 ≤ k → k < 32 → elem t shrP x k = some ⌊(x : ℚ) / 2 ^ k.toNat⌋) := by
  refine ⟨?_, ?_⟩
  · simp only [elem, shrP, promote_bits, Option.map_eq_none_iff]
    constructor
    · intro h; by_contra hc; norm_num at hc; simp [not_lt.mpr hc.1, not_le.mpr hc.2] at h
    · intro h; simp; omega
  · intro h0 h1
    have hf : Fits t (x / 2 ^ k.toNat) := by
      have hpos : (0 : Int) < 2 ^ k.toNat := by positivity
      have hup : 0 ≤ x → x / 2 ^ k.toNat ≤ x := fun h => Int.ediv_le_self _ h
      have hnn : 0 ≤ x → 0 ≤ x / 2 ^ k.toNat := fun h => Int.ediv_nonneg h hpos.le
      have hneg : x < 0 → x / 2 ^ k.toNat < 0 := fun h => Int.ediv_neg_of_neg_of_pos h hpos
      have hlow : x < 0 → x ≤ x / 2 ^ k.toNat := by
        intro h
        rw [Int.le_ediv_iff_mul_le hpos]
        nlinarith
      rcases lt_or_ge x 0 with h | h
      · have := hneg h; have := hlow h; cases t <;> simp only [Fits] at * <;> omega
      · have := hup h; have := hnn h; cases t <;> simp only [Fits] at * <;> omega
    simp only [elem, shrP, promote_bits]
    rw [if_neg (by norm_num; omega), Option.map_some, wrap_fits hf]
    congr 1
    have := Rat.floor_intCast_div_natCast x (2 ^ k.toNat)
    push_cast at this
    exact this.symm

/-- `<<` is defined for counts from 0 to 31 when the component is not negative and the shifted value has at most 32 bits; always for
`uint32`. The result is the product with a power of two, reduced to the element type. -/
theorem int_shl (t : IT) (x k : Int) (hx : Fits t x) :
    ((elem t shlP x k).isSome = true ↔ 0 ≤ k ∧ k < 32 ∧ (t = .u32 ∨ 0 ≤ x ∧ x * 2 ^ k.toNat < 2 ^ 32)) ∧
    (∀ r, elem t shlP x k = some r → Reduces t (x * 2 ^ k.toNat) r) := by
  have h32 : ((2 : Int) ^ 32) = 4294967296 := by norm_num
  by_cases hk : k < 0 ∨ 32 ≤ k
  · have : elem t shlP x k = none := by
      simp only [elem, shlP, promote_bits]; rw [if_pos (by norm_num; exact hk)]; rfl
    rw [this]; refine ⟨by simp; omega, by simp⟩
  · push Not at hk
    by_cases hu : t = .u32
    · subst hu
      have : elem .u32 shlP x k = some (wrap .u32 (wrap .u32 (x * 2 ^ k.toNat))) := by
        simp only [elem, shlP, promote_bits]; rw [if_neg (by norm_num; omega)]; simp [IT.promote, IT.signed]
      rw [this, wrap_fits (wrap_reduces .u32 _).1]
      exact ⟨by simp [hk], fun r hr => by cases hr; exact wrap_reduces _ _⟩
    · have hp : t.promote = .i32 := by cases t <;> simp_all [IT.promote]
      have hv : elem t shlP x k = if 0 ≤ x ∧ x * 2 ^ k.toNat < 2 ^ 32 then some (wrap t (wrap .i32 (x * 2 ^ k.toNat))) else none := by
        simp only [elem, shlP, promote_bits]; rw [if_neg (by norm_num; omega)]
        simp only [hp, IT.signed, if_true]
        by_cases h0 : x < 0
        · rw [if_pos h0, if_neg (by omega)]; rfl
        · rw [if_neg h0]
          by_cases h1 : x * 2 ^ k.toNat < 2 ^ 32
          · rw [if_pos h1, if_pos ⟨by omega, h1⟩]; rfl
          · rw [if_neg h1, if_neg (by tauto)]; rfl
      rw [hv]
      refine ⟨?_, ?_⟩
      · split <;> simp_all
      · intro r hr
        split at hr
        · cases hr
          obtain ⟨_, k1, h1⟩ := wrap_reduces .i32 (x * 2 ^ k.toNat)
          obtain ⟨hf, k2, h2⟩ := wrap_reduces t (wrap .i32 (x * 2 ^ k.toNat))
          have hd : ∃ m, card .i32 = m * card t := by
            cases t
            · exact ⟨16777216, rfl⟩
            · exact ⟨65536, rfl⟩
            · exact ⟨1, rfl⟩
            · exact ⟨16777216, rfl⟩
            · exact ⟨65536, rfl⟩
            · exact ⟨1, rfl⟩
          obtain ⟨m, hm⟩ := hd
          exact ⟨hf, k1 * m + k2, by rw [h2, h1, hm]; ring⟩
        · cases hr

/-- Shifting left and back is the identity when nothing is lost. -/
theorem int_shl_shr (t : IT) (x k : Int) (hx : 0 ≤ x) (h0 : 0 ≤ k) (h1 : k < 32) (hf : Fits t (x * 2 ^ k.toNat)) :
    (elem t shlP x k).bind (fun r => elem t shrP r k) = some x := by
  have hpow : (0 : Int) < 2 ^ k.toNat := by positivity
  have hle : x ≤ x * 2 ^ k.toNat := le_mul_of_one_le_right hx hpow
  have hfx : Fits t x := by cases t <;> simp only [Fits] at * <;> omega
  have h32 : x * 2 ^ k.toNat < 2 ^ 32 := by cases t <;> simp only [Fits] at * <;> norm_num <;> omega
  have hs := int_shl t x k hfx
  have hsome := hs.1.mpr ⟨h0, h1, Or.inr ⟨hx, h32⟩⟩
  obtain ⟨r, hr⟩ := Option.isSome_iff_exists.mp hsome
  have : r = x * 2 ^ k.toNat := reduces_unique (hs.2 r hr) ⟨hf, 0, by ring⟩
  subst this
  rw [hr, Option.bind_some, (int_shr t _ k hf).2 h0 h1]
  congr 1
  push_cast
  rw [mul_div_assoc, div_self (by positivity), mul_one, Int.floor_intCast]

example : bin2 .u8 shlP ⟨3, 200⟩ ⟨4, 1⟩ = some ⟨48, 144⟩ ∧ bin2 .i16 shrP ⟨-3, 9⟩ ⟨1, 2⟩ = some ⟨-2, 2⟩ ∧
    bin2 .i16 shlP ⟨-3, 9⟩ ⟨1, 2⟩ = none ∧ bin2 .u32 shlP ⟨1, 1⟩ ⟨31, 32⟩ = none := by decide +kernel
example : Fits .u16 (3 * 2 ^ (4 : Int).toNat) := by decide

/-! ## Negation, dot product -/

theorem bin2_some {t : IT} {f : IT → Int → Int → Option Int} {a b c : V2 Int} :
    bin2 t f a b = some c ↔ elem t f a.x b.x = some c.x ∧ elem t f a.y b.y = some c.y := by
  simp only [bin2]
  cases elem t f a.x b.x <;> cases elem t f a.y b.y <;> simp
  cases c; simp

theorem bin2_none {t : IT} {f : IT → Int → Int → Option Int} {a b : V2 Int} :
    bin2 t f a b = none ↔ elem t f a.x b.x = none ∨ elem t f a.y b.y = none := by
  simp only [bin2]
  cases elem t f a.x b.x <;> cases elem t f a.y b.y <;> simp

theorem bin3_some {t : IT} {f : IT → Int → Int → Option Int} {a b c : V3 Int} :
    bin3 t f a b = some c ↔ elem t f a.x b.x = some c.x ∧ elem t f a.y b.y = some c.y ∧ elem t f a.z b.z = some c.z := by
  simp only [bin3]
  cases elem t f a.x b.x <;> cases elem t f a.y b.y <;> cases elem t f a.z b.z <;> simp
  cases c; simp

theorem bin3_none {t : IT} {f : IT → Int → Int → Option Int} {a b : V3 Int} :
    bin3 t f a b = none ↔ elem t f a.x b.x = none ∨ elem t f a.y b.y = none ∨ elem t f a.z b.z = none := by
  simp only [bin3]
  cases elem t f a.x b.x <;> cases elem t f a.y b.y <;> cases elem t f a.z b.z <;> simp

theorem minus_one (t : IT) : Fits t (wrap t (-1)) ∧ Reduces t (-1) (wrap t (-1)) := ⟨(wrap_reduces t _).1, wrap_reduces t _⟩

theorem map_inType_some {t : IT} {z r : Int} (h : (inType t.promote z).map (wrap t) = some r) : Reduces t z r := by
  by_cases hu : t = .u32
  · subst hu
    have := (wrap_reduces .u32 z).1
    simp only [IT.promote, inType_u32, Option.map_some, wrap_fits this, Option.some.injEq] at h
    exact h ▸ wrap_reduces _ _
  · have hp : t.promote = .i32 := by cases t <;> simp_all [IT.promote]
    simp only [hp, inType_i32] at h
    split at h
    · simp only [Option.map_some, Option.some.injEq] at h; exact h ▸ wrap_reduces _ _
    · simp at h

theorem neg_elem (t : IT) (x : Int) (hx : Fits t x) :
    (elem t mulP x (wrap t (-1)) = none ↔ t = .i32 ∧ x = -2147483648 ∨ t = .u16 ∧ 32769 ≤ x) ∧
    (∀ r, elem t mulP x (wrap t (-1)) = some r → Reduces t (-x) r) := by
  have h16 : wrap .u16 (-1) = 65535 := by decide +kernel
  have h32 : wrap .i32 (-1) = -1 := by decide +kernel
  have hf : Fits t (wrap t (-1)) := (minus_one t).1
  obtain ⟨_, k, hk⟩ := (minus_one t).2
  refine ⟨?_, ?_⟩
  · by_cases h1 : t = .u16
    · subst h1
      rw [h16] at hf ⊢
      rw [mul_u16_violated x _ hx hf]; simp; omega
    · by_cases h2 : t = .i32
      · subst h2
        rw [h32, (i32_defined x (-1)).2.2]
        simp only [Fits] at *; simp; omega
      · obtain ⟨r, hr, _⟩ := (int_wraps_partial t h2 x _ hx hf).2.2 h1
        simp [hr, h1, h2]
  · intro r hr
    obtain ⟨hfr, l, hl⟩ := map_inType_some hr
    exact ⟨hfr, l + x * k, by rw [hl, hk]; ring⟩

/-- Unary minus: every component becomes its negative modulo the number of values (so that vector and negative sum up to 0), except
that it is undefined for a component 32769 or above of a `uint16` vector and for the least `int32`. -/
theorem int_neg_partial (t : IT) (a : V2 Int) (b : V3 Int) (ha : ∀ l ∈ a.toList, Fits t l) (hb : ∀ l ∈ b.toList, Fits t l) :
    (neg2 t a = none ↔ ∃ l ∈ a.toList, t = .i32 ∧ l = -2147483648 ∨ t = .u16 ∧ 32769 ≤ l) ∧
    (neg3 t b = none ↔ ∃ l ∈ b.toList, t = .i32 ∧ l = -2147483648 ∨ t = .u16 ∧ 32769 ≤ l) ∧
    (∀ r, neg2 t a = some r → Reduces t (-a.x) r.x ∧ Reduces t (-a.y) r.y) ∧
    (∀ r, neg3 t b = some r → Reduces t (-b.x) r.x ∧ Reduces t (-b.y) r.y ∧ Reduces t (-b.z) r.z) := by
  simp only [V2.toList, V3.toList, List.mem_cons, List.not_mem_nil, or_false, forall_eq_or_imp, forall_eq, exists_eq_or_imp,
    exists_eq_left] at *
  have kx := neg_elem t a.x ha.1
  have ky := neg_elem t a.y ha.2
  have lx := neg_elem t b.x hb.1
  have ly := neg_elem t b.y hb.2.1
  have lz := neg_elem t b.z hb.2.2
  refine ⟨?_, ?_, ?_, ?_⟩
  · rw [neg2, bin2_none, ← kx.1, ← ky.1]; rfl
  · rw [neg3, bin3_none, ← lx.1, ← ly.1, ← lz.1]; rfl
  · intro r hr
    have := bin2_some.mp hr
    exact ⟨kx.2 _ this.1, ky.2 _ this.2⟩
  · intro r hr
    have := bin3_some.mp hr
    exact ⟨lx.2 _ this.1, ly.2 _ this.2.1, lz.2 _ this.2.2⟩

/-- Unary minus of a `uint16` vector with a component from 32769 is undefined. -/
theorem neg_u16_violated (x y : Int) (hx : Fits .u16 x) (hy : Fits .u16 y) (h : 32769 ≤ x) : neg2 .u16 ⟨x, y⟩ = none :=
  (int_neg_partial .u16 ⟨x, y⟩ ⟨0, 0, 0⟩ (by simp [V2.toList, hx, hy]) (by simp [V3.toList, Fits])).1.mpr
    ⟨x, by simp [V2.toList], Or.inr ⟨rfl, h⟩⟩

example : neg2 .u8 ⟨1, 200⟩ = some ⟨255, 56⟩ ∧ neg2 .u16 ⟨32768, 5⟩ = some ⟨32768, 65531⟩ ∧ neg2 .u16 ⟨32769, 5⟩ = none := by
  decide +kernel

/-- `Dot`: a result is the exact dot product modulo the number of values of the element type; for elements of 8 bits there always is
one. -/
theorem int_dot (t : IT) (a b : V2 Int) (c d : V3 Int) :
    (∀ r, dot2 t a b = some r → Reduces t (a.x * b.x + a.y * b.y) r) ∧
    (∀ r, dot3 t c d = some r → Reduces t (c.x * d.x + c.y * d.y + c.z * d.z) r) ∧
    (t = .i8 ∨ t = .u8 → (∀ l ∈ a.toList ++ b.toList ++ c.toList ++ d.toList, Fits t l) →
      (dot2 t a b).isSome = true ∧ (dot3 t c d).isSome = true) := by
  have step : ∀ z r, inType t.promote z = some r → ∃ k, r = z + k * card t := by
    intro z r h
    have := map_inType_some (t := t) (z := z) (r := wrap t r) (by simp [h])
    obtain ⟨_, k, hk⟩ := this
    obtain ⟨_, l, hl⟩ := wrap_reduces t r
    exact ⟨k - l, by rw [hl] at hk; linarith⟩
  refine ⟨?_, ?_, ?_⟩
  · intro r h
    simp only [dot2, mulP, addP] at h
    cases h1 : inType t.promote (a.x * b.x) with
    | none => simp [h1] at h
    | some p =>
    cases h2 : inType t.promote (a.y * b.y) with
    | none => simp [h1, h2] at h
    | some q =>
    cases h3 : inType t.promote (p + q) with
    | none => simp [h1, h2, h3] at h
    | some s =>
    simp [h1, h2, h3] at h
    obtain ⟨k1, e1⟩ := step _ _ h1
    obtain ⟨k2, e2⟩ := step _ _ h2
    obtain ⟨k3, e3⟩ := step _ _ h3
    obtain ⟨hf, k4, e4⟩ := wrap_reduces t s
    rw [← h]
    exact ⟨hf, k1 + k2 + k3 + k4, by rw [e4, e3, e1, e2]; ring⟩
  · intro r h
    simp only [dot3, mulP, addP] at h
    cases h1 : inType t.promote (c.x * d.x) with
    | none => simp [h1] at h
    | some p =>
    cases h2 : inType t.promote (c.y * d.y) with
    | none => simp [h1, h2] at h
    | some q =>
    cases h3 : inType t.promote (p + q) with
    | none => simp [h1, h2, h3] at h
    | some s =>
    cases h5 : inType t.promote (c.z * d.z) with
    | none => simp [h1, h2, h3, h5] at h
    | some w =>
    cases h6 : inType t.promote (s + w) with
    | none => simp [h1, h2, h3, h5, h6] at h
    | some u =>
    simp [h1, h2, h3, h5, h6] at h
    obtain ⟨k1, e1⟩ := step _ _ h1
    obtain ⟨k2, e2⟩ := step _ _ h2
    obtain ⟨k3, e3⟩ := step _ _ h3
    obtain ⟨k5, e5⟩ := step _ _ h5
    obtain ⟨k6, e6⟩ := step _ _ h6
    obtain ⟨hf, k4, e4⟩ := wrap_reduces t u
    rw [← h]
    exact ⟨hf, k1 + k2 + k3 + k4 + k5 + k6, by rw [e4, e6, e5, e3, e1, e2]; ring⟩
  · intro ht hl
    have hb : ∀ x y, Fits t x → Fits t y → -65536 ≤ x * y ∧ x * y ≤ 65536 := by
      intro x y hx hy
      rcases ht with rfl | rfl <;> simp only [Fits] at hx hy <;> constructor <;> nlinarith
    have hp : t.promote = .i32 := by rcases ht with rfl | rfl <;> rfl
    have hin : ∀ z, -262144 ≤ z → z ≤ 262144 → inType .i32 z = some z := by
      intro z h1 h2; rw [inType_i32, if_pos]; simp only [Fits]; omega
    simp only [V2.toList, V3.toList, List.cons_append, List.nil_append, List.mem_cons, List.not_mem_nil, or_false,
      forall_eq_or_imp, forall_eq] at hl
    obtain ⟨ax, ay, bx, «by», cx, cy, cz, dx, dy, dz⟩ := hl
    have p1 := hb _ _ ax bx
    have p2 := hb _ _ ay «by»
    have p3 := hb _ _ cx dx
    have p4 := hb _ _ cy dy
    have p5 := hb _ _ cz dz
    constructor
    · simp only [dot2, mulP, addP, hp]
      rw [hin _ (by omega) (by omega), hin _ (by omega) (by omega)]
      simp only [Option.bind_eq_bind, Option.bind_some]
      rw [hin _ (by omega) (by omega)]; rfl
    · simp only [dot3, mulP, addP, hp]
      rw [hin _ (by omega) (by omega), hin _ (by omega) (by omega), hin (c.z * d.z) (by omega) (by omega)]
      simp only [Option.bind_eq_bind, Option.bind_some]
      rw [hin _ (by omega) (by omega)]
      simp only [Option.bind_some]
      rw [hin _ (by omega) (by omega)]; rfl

example : dot2 .u8 ⟨200, 3⟩ ⟨1, 4⟩ = some 212 ∧ dot2 .u8 ⟨200, 200⟩ ⟨1, 1⟩ = some 144 ∧ dot2 .u16 ⟨65535, 0⟩ ⟨65535, 0⟩ = none := by
  decide +kernel

/-! ## Length -/

/-- What `sqrt` of `double` guarantees on the integers that occur: exact on squares, close to the root elsewhere (in truth the nearest
`double`, which for these arguments is far closer than the bound). -/
def GoodRoot (root : Int → ℝ) : Prop :=
  ∀ n : Int, 0 ≤ n → n < 2 ^ 34 → |root n - Real.sqrt n| ≤ 1 / 2 ^ 20 ∧ ∀ m : Int, 0 ≤ m → n = m * m → root n = m

theorem goodRoot_floor {root : Int → ℝ} (h : GoodRoot root) {n m : Int} (h1 : n < 2 ^ 34) (hm : 0 ≤ m)
    (hl : m * m ≤ n) (hu : n < (m + 1) * (m + 1)) : ⌊root n⌋ = m := by
  have h0 : 0 ≤ n := le_trans (mul_nonneg hm hm) hl
  obtain ⟨hc, he⟩ := h n h0 h1
  by_cases hs : n = m * m
  · rw [he m hm hs]; exact Int.floor_intCast m
  · have hlt : m * m + 1 ≤ n := by omega
    have hmb : m < 2 ^ 17 := by
      by_contra hcon; push Not at hcon
      nlinarith
    have hmr : (m : ℝ) < 131072 := by
      have : m < 131072 := by simpa using hmb
      exact_mod_cast this
    have hmr0 : (0 : ℝ) ≤ m := by exact_mod_cast hm
    have hs0 := Real.sqrt_nonneg (n : ℝ)
    have hsq : Real.sqrt n * Real.sqrt n = n := Real.mul_self_sqrt (by exact_mod_cast h0)
    have hn1 : (m : ℝ) * m + 1 ≤ n := by exact_mod_cast hlt
    have hn2 : (n : ℝ) + 1 ≤ (m + 1) * (m + 1) := by
      have : n + 1 ≤ (m + 1) * (m + 1) := hu
      exact_mod_cast this
    have hlow : (m : ℝ) + 1 / 2 ^ 20 ≤ Real.sqrt n := by
      by_contra hcon; push Not at hcon
      have : (Real.sqrt n) * Real.sqrt n < (m + 1 / 2 ^ 20) * (m + 1 / 2 ^ 20) := by nlinarith
      norm_num at this hcon ⊢
      nlinarith
    have hupp : Real.sqrt n + 1 / 2 ^ 20 < m + 1 := by
      by_contra hcon; push Not at hcon
      have h3 : (0 : ℝ) ≤ (m : ℝ) + 1 - 1 / 2 ^ 20 := by norm_num; linarith
      have h4 : (m : ℝ) + 1 - 1 / 2 ^ 20 ≤ Real.sqrt n := by linarith
      have := mul_le_mul h4 h4 h3 hs0
      norm_num at this
      nlinarith
    rw [abs_le] at hc
    rw [Int.floor_eq_iff]
    constructor <;> linarith [hc.1, hc.2]

/-- `Length` of a vector of 8 or 16 bit integers is the integer part of the length, and undefined exactly if that does not fit the
element type. -/
theorem int_length_partial {root : Int → ℝ} (h : GoodRoot root) (t : IT) (ht : t.bits ≤ 16) (a : V2 Int) (b : V3 Int)
    (ha : ∀ l ∈ a.toList, Fits t l) (hb : ∀ l ∈ b.toList, Fits t l) (m n : Int) (hm : 0 ≤ m) (hn : 0 ≤ n)
    (hma : m * m ≤ a.x ^ 2 + a.y ^ 2 ∧ a.x ^ 2 + a.y ^ 2 < (m + 1) * (m + 1))
    (hnb : n * n ≤ b.x ^ 2 + b.y ^ 2 + b.z ^ 2 ∧ b.x ^ 2 + b.y ^ 2 + b.z ^ 2 < (n + 1) * (n + 1)) :
    length2 root t a = (if Fits t m then some m else none) ∧ length3 root t b = (if Fits t n then some n else none) := by
  have hsq : ∀ x, Fits t x → x ^ 2 ≤ 65535 * 65535 := by
    intro x hx
    cases t <;> simp only [Fits, IT.bits] at hx ht <;> first | omega | nlinarith
  have hhi : ∀ z, 0 ≤ z → (z ≤ t.hi ↔ Fits t z) := by
    intro z hz; cases t <;> simp only [IT.hi, Fits, IT.signed, IT.bits] <;> norm_num <;> omega
  simp only [V2.toList, V3.toList, List.mem_cons, List.not_mem_nil, or_false, forall_eq_or_imp, forall_eq] at ha hb
  have q1 := hsq _ ha.1
  have q2 := hsq _ ha.2
  have q3 := hsq _ hb.1
  have q4 := hsq _ hb.2.1
  have q5 := hsq _ hb.2.2
  have e1 := goodRoot_floor h (n := a.x ^ 2 + a.y ^ 2) (by norm_num; omega) hm hma.1 hma.2
  have e2 := goodRoot_floor h (n := b.x ^ 2 + b.y ^ 2 + b.z ^ 2) (by norm_num; omega) hn hnb.1 hnb.2
  constructor
  · simp only [length2, castDouble, e1, hhi m hm]
  · simp only [length3, castDouble, e2, hhi n hn]

/-- The exact root is one that satisfies the hypothesis. -/
example : GoodRoot (fun n => Real.sqrt n) := by
  intro n _ _
  refine ⟨by simp, fun m hm hn => ?_⟩
  rw [hn]; push_cast; exact Real.sqrt_mul_self (by exact_mod_cast hm)

/-- `Length` of `(3, 4)` is 5; of the `int8` vector `(-128, 0)`, and of a `uint8` vector `(255, 255)`, undefined. -/
theorem length8_violated {root : Int → ℝ} (h : GoodRoot root) :
    length2 root .i8 ⟨3, 4⟩ = some 5 ∧ length2 root .i8 ⟨-128, 0⟩ = none ∧
    (∀ x y, Fits .u8 x → Fits .u8 y → 65536 ≤ x ^ 2 + y ^ 2 → length2 root .u8 ⟨x, y⟩ = none) := by
  have z3 : ∀ t, ∀ l ∈ (⟨0, 0, 0⟩ : V3 Int).toList, Fits t l := by intro t; cases t <;> simp [V3.toList, Fits]
  refine ⟨?_, ?_, ?_⟩
  · exact (int_length_partial h .i8 (by decide) ⟨3, 4⟩ ⟨0, 0, 0⟩ (by decide) (z3 _) 5 0 (by decide) (by decide) (by decide) (by decide)).1
  · exact (int_length_partial h .i8 (by decide) ⟨-128, 0⟩ ⟨0, 0, 0⟩ (by decide) (z3 _) 128 0 (by decide) (by decide) (by decide)
      (by decide)).1
  · intro x y hx hy hxy
    have hs := Nat.sqrt_le (x ^ 2 + y ^ 2).toNat
    have hs' := Nat.lt_succ_sqrt (x ^ 2 + y ^ 2).toNat
    have h0 : 0 ≤ x ^ 2 + y ^ 2 := by positivity
    have hcast : ((x ^ 2 + y ^ 2).toNat : Int) = x ^ 2 + y ^ 2 := Int.toNat_of_nonneg h0
    have h1 : ((Nat.sqrt (x ^ 2 + y ^ 2).toNat : Nat) : Int) * (Nat.sqrt (x ^ 2 + y ^ 2).toNat : Nat) ≤ x ^ 2 + y ^ 2 := by
      rw [← hcast]; exact_mod_cast hs
    have h2 : x ^ 2 + y ^ 2 < ((Nat.sqrt (x ^ 2 + y ^ 2).toNat : Nat) + 1 : Int) * ((Nat.sqrt (x ^ 2 + y ^ 2).toNat : Nat) + 1) := by
      rw [← hcast]; exact_mod_cast hs'
    have hm : (0 : Int) ≤ (Nat.sqrt (x ^ 2 + y ^ 2).toNat : Nat) := Int.natCast_nonneg _
    generalize ((Nat.sqrt (x ^ 2 + y ^ 2).toNat : Nat) : Int) = m at h1 h2 hm
    rw [(int_length_partial h .u8 (by decide) ⟨x, y⟩ ⟨0, 0, 0⟩ (by simp [V2.toList, hx, hy]) (z3 _) m 0 hm (by decide) ⟨h1, h2⟩
        (by decide)).1, if_neg]
    simp only [Fits]; intro hc; nlinarith [hc.1, hc.2]

theorem tdiv_unit (x m : Int) (hm : 0 < m) (hx : x * x < (m + 1) * (m + 1)) :
    (x.tdiv m = -1 ∨ x.tdiv m = 0 ∨ x.tdiv m = 1) ∧ (x.tdiv m = 0 ↔ -m < x ∧ x < m) := by
  have h1 : x ≤ m := by nlinarith
  have h2 : -m ≤ x := by nlinarith
  rcases lt_trichotomy x m with h | h | h
  · rcases lt_trichotomy x (-m) with h' | h' | h'
    · omega
    · subst h'
      have : (-m).tdiv m = -1 := by rw [Int.neg_tdiv, Int.tdiv_self (by omega)]
      rw [this]; omega
    · have : x.tdiv m = 0 := by
        rcases le_or_gt 0 x with h0 | h0
        · exact Int.tdiv_eq_zero_of_lt h0 h
        · have : (-x).tdiv m = 0 := Int.tdiv_eq_zero_of_lt (by omega) (by omega)
          rw [Int.neg_tdiv] at this; omega
      rw [this]; omega
  · subst h; rw [Int.tdiv_self (by omega)]; omega
  · omega

theorem sqrt_int (n : Int) (h : 0 ≤ n) : ∃ m : Int, 0 ≤ m ∧ m * m ≤ n ∧ n < (m + 1) * (m + 1) := by
  have hc : (n.toNat : Int) = n := Int.toNat_of_nonneg h
  refine ⟨(Nat.sqrt n.toNat : Nat), Int.natCast_nonneg _, ?_, ?_⟩
  · have := Nat.sqrt_le n.toNat
    rw [← hc]; exact_mod_cast this
  · have := Nat.lt_succ_sqrt n.toNat
    rw [← hc]; exact_mod_cast this

/-- `Normalize` of a vector of 8 or 16 bit integers divides by the integer part `m` of the length (towards zero), leaves the zero
vector alone, and is undefined exactly if `m` does not fit the element type. -/
theorem int_normalize {root : Int → ℝ} (h : GoodRoot root) (t : IT) (ht : t.bits ≤ 16) (a : V2 Int) (b : V3 Int)
    (ha : ∀ l ∈ a.toList, Fits t l) (hb : ∀ l ∈ b.toList, Fits t l) (m n : Int) (hm : 0 ≤ m) (hn : 0 ≤ n)
    (hma : m * m ≤ a.x ^ 2 + a.y ^ 2 ∧ a.x ^ 2 + a.y ^ 2 < (m + 1) * (m + 1))
    (hnb : n * n ≤ b.x ^ 2 + b.y ^ 2 + b.z ^ 2 ∧ b.x ^ 2 + b.y ^ 2 + b.z ^ 2 < (n + 1) * (n + 1)) :
    normalize2 root t a = (if Fits t m then some (if m = 0 then a else ⟨a.x.tdiv m, a.y.tdiv m⟩) else none) ∧
    normalize3 root t b =
      (if Fits t n then some (if n = 0 then b else ⟨b.x.tdiv n, b.y.tdiv n, b.z.tdiv n⟩) else none) := by
  have hl := int_length_partial h t ht a b ha hb m n hm hn hma hnb
  simp only [V2.toList, V3.toList, List.mem_cons, List.not_mem_nil, or_false, forall_eq_or_imp, forall_eq] at ha hb
  have hdiv : ∀ x k : Int, Fits t x → Fits t k → 0 ≤ k → k ≠ 0 → elem t divP x k = some (x.tdiv k) :=
    fun x k hx hk h0 h1 => (int_div t x k hx hk).2.2 h1 (Or.inl (by omega))
  constructor
  · simp only [normalize2, hl.1]
    by_cases hf : Fits t m
    · simp only [if_pos hf, Option.bind_eq_bind, Option.bind_some]
      by_cases h0 : m = 0
      · simp [h0]
      · rw [if_neg h0, if_neg h0, bin2_some]
        exact ⟨hdiv _ _ ha.1 hf hm h0, hdiv _ _ ha.2 hf hm h0⟩
    · simp [if_neg hf]
  · simp only [normalize3, hl.2]
    by_cases hf : Fits t n
    · simp only [if_pos hf, Option.bind_eq_bind, Option.bind_some]
      by_cases h0 : n = 0
      · simp [h0]
      · rw [if_neg h0, if_neg h0, bin3_some]
        exact ⟨hdiv _ _ hb.1 hf hn h0, hdiv _ _ hb.2.1 hf hn h0, hdiv _ _ hb.2.2 hf hn h0⟩
    · simp [if_neg hf]

/-- So the result has -1, 0 and 1 only, and 0 in every component smaller than `m`: the direction is lost for all but (nearly)
axis-parallel vectors. -/
theorem int_normalize_violated {root : Int → ℝ} (h : GoodRoot root) (t : IT) (ht : t.bits ≤ 16) (a : V2 Int) (b : V3 Int)
    (ha : ∀ l ∈ a.toList, Fits t l) (hb : ∀ l ∈ b.toList, Fits t l) :
    (∀ r, normalize2 root t a = some r → (∀ l ∈ r.toList, l = -1 ∨ l = 0 ∨ l = 1) ∧
      (∀ m, 0 ≤ m → m * m ≤ a.x ^ 2 + a.y ^ 2 → (∀ l ∈ a.toList, |l| < m) → r = ⟨0, 0⟩)) ∧
    (∀ r, normalize3 root t b = some r → (∀ l ∈ r.toList, l = -1 ∨ l = 0 ∨ l = 1) ∧
      (∀ m, 0 ≤ m → m * m ≤ b.x ^ 2 + b.y ^ 2 + b.z ^ 2 → (∀ l ∈ b.toList, |l| < m) → r = ⟨0, 0, 0⟩)) := by
  simp only [V2.toList, V3.toList, List.mem_cons, List.not_mem_nil, or_false, forall_eq_or_imp, forall_eq]
  obtain ⟨m, hm0, hm1, hm2⟩ := sqrt_int (a.x ^ 2 + a.y ^ 2) (by positivity)
  obtain ⟨n, hn0, hn1, hn2⟩ := sqrt_int (b.x ^ 2 + b.y ^ 2 + b.z ^ 2) (by positivity)
  have hN := int_normalize h t ht a b ha hb m n hm0 hn0 ⟨hm1, hm2⟩ ⟨hn1, hn2⟩
  refine ⟨?_, ?_⟩
  · intro r hr
    rw [hN.1] at hr
    split at hr
    · cases hr
      by_cases h0 : m = 0
      · subst h0
        have hx : a.x = 0 := by nlinarith [sq_nonneg a.y, sq_nonneg a.x]
        have hy : a.y = 0 := by nlinarith [sq_nonneg a.y, sq_nonneg a.x]
        refine ⟨by simp [hx, hy], ?_⟩
        intro k _ _ _
        cases a; simp_all
      · have u1 := tdiv_unit a.x m (by omega) (by nlinarith [sq_nonneg a.y])
        have u2 := tdiv_unit a.y m (by omega) (by nlinarith [sq_nonneg a.x])
        rw [if_neg h0]
        refine ⟨⟨u1.1, u2.1⟩, ?_⟩
        intro k hk hkk hlt
        have hkm : k ≤ m := by nlinarith
        obtain ⟨a1, a2⟩ := abs_lt.mp hlt.1
        obtain ⟨a3, a4⟩ := abs_lt.mp hlt.2
        rw [u1.2.mpr ⟨by omega, by omega⟩, u2.2.mpr ⟨by omega, by omega⟩]
    · cases hr
  · intro r hr
    rw [hN.2] at hr
    split at hr
    · cases hr
      by_cases h0 : n = 0
      · subst h0
        have hx : b.x = 0 := by nlinarith [sq_nonneg b.y, sq_nonneg b.x, sq_nonneg b.z]
        have hy : b.y = 0 := by nlinarith [sq_nonneg b.y, sq_nonneg b.x, sq_nonneg b.z]
        have hz : b.z = 0 := by nlinarith [sq_nonneg b.y, sq_nonneg b.x, sq_nonneg b.z]
        refine ⟨by simp [hx, hy, hz], ?_⟩
        intro k _ _ _
        cases b; simp_all
      · have u1 := tdiv_unit b.x n (by omega) (by nlinarith [sq_nonneg b.y, sq_nonneg b.z])
        have u2 := tdiv_unit b.y n (by omega) (by nlinarith [sq_nonneg b.x, sq_nonneg b.z])
        have u3 := tdiv_unit b.z n (by omega) (by nlinarith [sq_nonneg b.x, sq_nonneg b.y])
        rw [if_neg h0]
        refine ⟨⟨u1.1, u2.1, u3.1⟩, ?_⟩
        intro k hk hkk hlt
        have hkm : k ≤ n := by nlinarith
        obtain ⟨a1, a2⟩ := abs_lt.mp hlt.1
        obtain ⟨a3, a4⟩ := abs_lt.mp hlt.2.1
        obtain ⟨a5, a6⟩ := abs_lt.mp hlt.2.2
        rw [u1.2.mpr ⟨by omega, by omega⟩, u2.2.mpr ⟨by omega, by omega⟩, u3.2.mpr ⟨by omega, by omega⟩]
    · cases hr

/-- `(3, 4)` becomes the zero vector. -/
example {root : Int → ℝ} (h : GoodRoot root) : normalize2 root .i8 ⟨3, 4⟩ = some ⟨0, 0⟩ := by
  simp only [normalize2, (length8_violated h).1]; decide +kernel

end PreCore.IntVec
