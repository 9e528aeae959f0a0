import Verif.Props.UniFormat
import Verif.Props.EsFloat
/-!
# C134: float vertex formats
-/
namespace PreCore.Uni
open PreCore PreCore.F32 PreCore.EsFloat

/-! ## Specification -/

/-- Unsigned small floats of R11G11B10: 5 exponent bits, 6 (red, green) or 5 (blue) bits of the mantissa. -/
def uf11 : Fmt := ⟨6, 5, false⟩
def uf10 : Fmt := ⟨5, 5, false⟩
/-- Eleven bits with a sign: 5 exponent bits, 5 bits of the mantissa. -/
def sf11 : Fmt := ⟨5, 5, true⟩

/-- The value is zero, normal or infinite (not a subnormal or NaN). -/
def Fmt.Plain (f : Fmt) (n : Nat) : Prop :=
  (n / 2 ^ f.m % 2 ^ f.e = 0 → n % 2 ^ f.m = 0) ∧ (n / 2 ^ f.m % 2 ^ f.e = 2 ^ f.e - 1 → n % 2 ^ f.m = 0)

/-! ## 32 bit floats -/

theorem float32_R32G32B32A32 (mem : List Byte) (h : 16 ≤ mem.length) :
    ∃ c l, codec .FLOAT .R32G32B32A32 = some c ∧ c.isInt = false ∧ c.value mem = some l ∧
      ∀ k, k < 4 → (l.get k).toNat = channel .R32G32B32A32 k (mem.take 16) := by
  refine ⟨_, _, rfl, rfl, by simp only; rw [load_ok h]; rfl, ?_⟩
  intro k hk
  have h3 : k = 0 ∨ k = 1 ∨ k = 2 ∨ k = 3 := by omega
  rcases h3 with rfl | rfl | rfl | rfl <;> exact member_toNat _ _ _ (by decide)

theorem float32_R32G32B32 (mem : List Byte) (h : 12 ≤ mem.length) :
    ∃ c l, codec .FLOAT .R32G32B32 = some c ∧ c.isInt = false ∧ c.value mem = some l ∧
      ∀ k, k < 4 → (l.get k).toNat = channel .R32G32B32 k (mem.take 12) := by
  refine ⟨_, _, rfl, rfl, by simp only; rw [load_ok h]; rfl, ?_⟩
  intro k hk
  have h3 : k = 0 ∨ k = 1 ∨ k = 2 ∨ k = 3 := by omega
  rcases h3 with rfl | rfl | rfl | rfl
  iterate 3 exact member_toNat _ _ _ (by decide)
  exact (Nat.mod_one _).symm

theorem float32_R32G32 (mem : List Byte) (h : 8 ≤ mem.length) :
    ∃ c l, codec .FLOAT .R32G32 = some c ∧ c.isInt = false ∧ c.value mem = some l ∧
      ∀ k, k < 4 → (l.get k).toNat = channel .R32G32 k (mem.take 8) := by
  refine ⟨_, _, rfl, rfl, by simp only; rw [load_ok h]; rfl, ?_⟩
  intro k hk
  have h3 : k = 0 ∨ k = 1 ∨ k = 2 ∨ k = 3 := by omega
  rcases h3 with rfl | rfl | rfl | rfl
  iterate 2 exact member_toNat _ _ _ (by decide)
  iterate 2 exact (Nat.mod_one _).symm

theorem float32_R32 (mem : List Byte) (h : 4 ≤ mem.length) :
    ∃ c l, codec .FLOAT .R32 = some c ∧ c.isInt = false ∧ c.value mem = some l ∧
      ∀ k, k < 4 → (l.get k).toNat = channel .R32 k (mem.take 4) := by
  refine ⟨_, _, rfl, rfl, by simp only; rw [load_ok h]; rfl, ?_⟩
  intro k hk
  have h3 : k = 0 ∨ k = 1 ∨ k = 2 ∨ k = 3 := by omega
  rcases h3 with rfl | rfl | rfl | rfl
  · exact member_toNat _ _ _ (by decide)
  iterate 3 exact (Nat.mod_one _).symm

/-- C134: 32 bit float channels are returned bit by bit, absent channels are +0, and only the element is read. -/
theorem float32_exact (d : DataType) (hd : d = .R32G32B32A32 ∨ d = .R32G32B32 ∨ d = .R32G32 ∨ d = .R32) (mem : List Byte)
    (h : size d ≤ mem.length) : ∃ c l, codec .FLOAT d = some c ∧ c.isInt = false ∧ c.value mem = some l ∧
      ∀ k, k < 4 → (l.get k).toNat = channel d k (mem.take (size d)) := by
  rcases hd with rfl | rfl | rfl | rfl
  · exact float32_R32G32B32A32 mem h
  · exact float32_R32G32B32 mem h
  · exact float32_R32G32 mem h
  · exact float32_R32 mem h

/-! ## 16 bit floats -/

theorem lanes_map_get (l : Lanes) (f : BitVec 32 → BitVec 32) (k : Nat) : (l.map f).get k = f (l.get k) := by
  match k with
  | 0 | 1 | 2 | _ + 3 => rfl

theorem float16_codec (d : DataType) (hd : d = .R16G16B16A16 ∨ d = .R16G16B16 ∨ d = .R16G16) :
    codec .FLOAT d = some ⟨false, fun mem => (noFrac d mem).map (·.map (toVectorLane float16))⟩ := by
  rcases hd with rfl | rfl | rfl <;>
    (simp only [codec, getFloat, Option.map_some]; congr 2; funext mem; simp only [Option.bind_eq_bind, Option.pure_def]; rw [Option.map_eq_bind]; rfl)

/-- C134: 16 bit float channels of vectors have the exact value, for every half float but NaN; absent channels are +0. -/
theorem float16_exact (d : DataType) (hd : d = .R16G16B16A16 ∨ d = .R16G16B16 ∨ d = .R16G16) (mem : List Byte)
    (h : normNeeds d ≤ mem.length) : ∃ c l, codec .FLOAT d = some c ∧ c.isInt = false ∧ c.value mem = some l ∧
      ∀ k, k < 4 → float16.value (channel d k (mem.take (size d))) ≠ .nan →
        val (l.get k) = float16.value (channel d k (mem.take (size d))) := by
  obtain ⟨l, hl, hv⟩ := noFrac_exact d mem h
  refine ⟨_, l.map (toVectorLane float16), float16_codec d hd, rfl, by simp only; rw [hl]; rfl, ?_⟩
  intro k hk hn
  have hc : cleanChannel d k = true := by rcases hd with rfl | rfl | rfl <;> rfl
  have e := hv k hk hc
  rw [lanes_map_get, ← e]
  rw [← e] at hn
  exact half_toVector4_exact _ hn

/-- C134: a single 16 bit float has the exact value unless it is a negative zero or a negative subnormal; NaNs stay NaNs. -/
theorem float16_single_partial (mem : List Byte) (h : 2 ≤ mem.length) : ∃ c l, codec .FLOAT .R16 = some c ∧ c.isInt = false ∧
    c.value mem = some l ∧ l.y = 0 ∧ l.z = 0 ∧ l.w = 0 ∧
    (¬ (0x8000 ≤ channel .R16 0 (mem.take 2) ∧ channel .R16 0 (mem.take 2) < 0x8400) → val l.x = float16.value (channel .R16 0 (mem.take 2))) := by
  refine ⟨_, _, rfl, rfl, by simp only; rw [load_ok h]; rfl, rfl, rfl, rfl, ?_⟩
  have hb := leNat_take_lt mem 2
  have e : channel .R16 0 (mem.take 2) = leNat (mem.take 2) := by
    rw [chan_def .R16 0 _ 0 16 rfl rfl]
    generalize leNat (List.take 2 mem) = N at *
    omega
  rw [e]
  intro hn
  have e1 : (BitVec.ofNat 64 (leNat (mem.take 2))).toNat = leNat (mem.take 2) := by
    rw [BitVec.toNat_ofNat]; generalize leNat (List.take 2 mem) = N at *; omega
  have := half_toFloat_exact_partial (BitVec.ofNat 64 (leNat (mem.take 2)))
    (by rw [e1]; generalize leNat (List.take 2 mem) = N at *; omega)
  rw [BitVec.toNat_setWidth, e1] at this
  have e2 : leNat (mem.take 2) % 2 ^ 32 = leNat (mem.take 2) := by generalize leNat (List.take 2 mem) = N at *; omega
  rw [e2] at this
  exact this

/-- C134 VIOLATED: the half float -0 (bytes 00 80) is read as -1. -/
theorem float16_single_violated : ∃ c, codec .FLOAT .R16 = some c ∧ c.value [0x00, 0x80] = some ⟨0xbf800000, 0, 0, 0⟩ ∧
    float16.value (channel .R16 0 [0x00, 0x80]) = .fin true 0 := by
  refine ⟨_, rfl, by decide +kernel, by decide +kernel⟩

/-! ## R11G11B10 -/

theorem plain_value (f : Fmt) (v : BitVec 32) (h : f.ok) (he : 2 ≤ f.e) (hp : Fmt.Plain f v.toNat) : val (toVectorLane f v) = f.value v.toNat := by
  obtain ⟨h0, h1⟩ := hp
  have h4 : 4 ≤ 2 ^ f.e := by
    calc 4 = 2 ^ 2 := rfl
      _ ≤ _ := Nat.pow_le_pow_right (by decide) he
  refine toVector4_exact f v h ?_ (fun hz => .inr (h0 hz))
  unfold Fmt.value
  simp only
  split
  · rw [if_pos (h1 (by assumption))]; exact fun hc => by cases hc
  · split <;> exact fun hc => by cases hc

/-- C134: red and green of R11G11B10 have the exact value when they are zero, normal or infinite, unsigned and signed. -/
theorem float11_exact_partial (mem : List Byte) (h : 4 ≤ mem.length) : ∃ c c' l l', codec .UFLOAT .R11G11B10 = some c ∧
    codec .FLOAT .R11G11B10 = some c' ∧ c.isInt = false ∧ c'.isInt = false ∧ c.value mem = some l ∧ c'.value mem = some l' ∧
    (∀ k, k < 2 → Fmt.Plain uf11 (channel .R11G11B10 k (mem.take 4)) → val (l.get k) = uf11.value (channel .R11G11B10 k (mem.take 4))) ∧
    (∀ k, k < 2 → Fmt.Plain sf11 (channel .R11G11B10 k (mem.take 4)) → val (l'.get k) = sf11.value (channel .R11G11B10 k (mem.take 4))) ∧
    val l.w = .fin false 0 ∧ val l'.w = .fin false 0 := by
  obtain ⟨l, hl, hv⟩ := noFrac_exact .R11G11B10 mem h
  refine ⟨_, _, l.map (toVectorLane uf11), l.map (toVectorLane sf11), rfl, rfl, rfl, rfl, by simp only; rw [hl]; rfl,
    by simp only; rw [hl]; rfl, ?_, ?_, ?_, ?_⟩
  · intro k hk hp
    have e := hv k (by omega) (by rcases (show k = 0 ∨ k = 1 by omega) with rfl | rfl <;> rfl)
    rw [lanes_map_get, show mem.take 4 = mem.take (size .R11G11B10) from rfl, ← e]
    rw [show mem.take 4 = mem.take (size .R11G11B10) from rfl, ← e] at hp
    exact plain_value _ _ (by unfold Fmt.ok uf11; decide) (by decide) hp
  · intro k hk hp
    have e := hv k (by omega) (by rcases (show k = 0 ∨ k = 1 by omega) with rfl | rfl <;> rfl)
    rw [lanes_map_get, show mem.take 4 = mem.take (size .R11G11B10) from rfl, ← e]
    rw [show mem.take 4 = mem.take (size .R11G11B10) from rfl, ← e] at hp
    exact plain_value _ _ (by unfold Fmt.ok sf11; decide) (by decide) hp
  · have e := hv 3 (by omega) rfl
    have e0 : l.w = 0 := BitVec.eq_of_toNat_eq (e.trans (Nat.mod_one _))
    show val (toVectorLane uf11 l.w) = _
    rw [e0]; decide +kernel
  · have e := hv 3 (by omega) rfl
    have e0 : l.w = 0 := BitVec.eq_of_toNat_eq (e.trans (Nat.mod_one _))
    show val (toVectorLane sf11 l.w) = _
    rw [e0]; decide +kernel

/-- Ten bits with a zero below them are the same number with one more bit of the mantissa. -/
theorem uf10_shift (n : Nat) (h : n < 2 ^ 10) : uf11.value (2 * n) = uf10.value n ∧ (Fmt.Plain uf10 n → Fmt.Plain uf11 (2 * n)) := by
  have a1 : 2 * n % 2 ^ 6 = 2 * (n % 2 ^ 5) := by omega
  have a2 : 2 * n / 2 ^ 6 = n / 2 ^ 5 := by omega
  refine ⟨?_, ?_⟩
  · unfold Fmt.value uf11 uf10
    simp only [Bool.false_and]
    rw [a1, a2]
    have c1 : (2 * (n % 2 ^ 5) = 0) = (n % 2 ^ 5 = 0) := by apply propext; omega
    have e1 : 150 - (2 ^ (5 - 1) - 1) - 5 = 150 - (2 ^ (5 - 1) - 1) - 6 + 1 := by decide
    have e2 : ∀ x k : Nat, 2 * x * 2 ^ k = x * 2 ^ (k + 1) := by intro x k; rw [Nat.pow_succ, Nat.mul_comm 2 x, Nat.mul_assoc, Nat.mul_comm 2]
    have e3 : 2 ^ 6 + 2 * (n % 2 ^ 5) = 2 * (2 ^ 5 + n % 2 ^ 5) := by omega
    rw [e3, e2, e2, e1]
    simp only [c1]
  · unfold Fmt.Plain uf11 uf10
    simp only
    rw [a1, a2]
    rintro ⟨p, q⟩
    exact ⟨fun hh => by have := p hh; omega, fun hh => by have := q hh; omega⟩

/-- C134: blue of the unsigned R11G11B10 has the exact value of its ten bits when green is below 2 (top bit clear), and blue is zero,
normal or infinite. -/
theorem float10_exact_partial (mem : List Byte) (h : 4 ≤ mem.length) (hg : channel .R11G11B10 1 (mem.take 4) < 2 ^ 10)
    (hp : Fmt.Plain uf10 (channel .R11G11B10 2 (mem.take 4))) : ∃ c l, codec .UFLOAT .R11G11B10 = some c ∧ c.value mem = some l ∧
    val l.z = uf10.value (channel .R11G11B10 2 (mem.take 4)) := by
  obtain ⟨l, hl, -⟩ := noFrac_exact .R11G11B10 mem h
  have hz := (noFrac_leaks mem).1 l h hl
  have hb := channel_lt .R11G11B10 2 (mem.take 4)
  have hb : channel .R11G11B10 2 (mem.take 4) < 2 ^ 10 := hb
  rw [Nat.div_eq_of_lt hg, Nat.add_zero] at hz
  obtain ⟨s1, s2⟩ := uf10_shift _ hb
  refine ⟨_, l.map (toVectorLane uf11), rfl, by simp only; rw [hl]; rfl, ?_⟩
  show val (toVectorLane uf11 l.z) = _
  rw [← s1, ← hz]
  exact plain_value _ _ (by unfold Fmt.ok uf11; decide) (by decide) (by rw [hz]; exact s2 hp)

/-- C134 VIOLATED: blue takes the top bit of green below its own bits. With green = 2 and blue = 1 the blue read is 1 + 1/64. -/
theorem float10_violated : ∃ c l, codec .UFLOAT .R11G11B10 = some c ∧ c.value [0x00, 0x00, 0x20, 0x78] = some l ∧
    channel .R11G11B10 1 [0x00, 0x00, 0x20, 0x78] = 2 ^ 10 ∧ uf10.value (channel .R11G11B10 2 [0x00, 0x00, 0x20, 0x78]) = val 0x3f800000 ∧
    l.z = 0x3f820000 :=
  ⟨_, _, rfl, rfl, by decide +kernel, by decide +kernel, by decide +kernel⟩

/-- C134 VIOLATED: subnormals are read 16 times too small: the smallest red, 2^-20, is read as 2^-24. -/
theorem float11_subnormal_violated : ∃ c l, codec .UFLOAT .R11G11B10 = some c ∧ c.value [0x01, 0x00, 0x00, 0x00] = some l ∧
    uf11.value 1 = .fin false (2 ^ 129) ∧ val l.x = .fin false (2 ^ 125) :=
  ⟨_, _, rfl, rfl, by decide +kernel, by decide +kernel⟩

/-- Bytes of (1, 2, 0.5) and of the halves (1, -2). -/
example : ∃ c, codec .UFLOAT .R11G11B10 = some c ∧ c.value [0xc0, 0x03, 0x1e, 0x70] = some ⟨0x3f800000, 0x3f800000, 0x3f000000, 0⟩ :=
  ⟨_, rfl, by decide +kernel⟩
example : Fmt.Plain uf11 0x3c0 ∧ Fmt.Plain uf10 0x1c0 ∧ channel .R11G11B10 1 [0xc0, 0x03, 0x1e, 0x70] < 2 ^ 10 := by
  unfold Fmt.Plain; decide +kernel
example : ∃ c, codec .FLOAT .R16G16 = some c ∧ c.value [0x00, 0x3c, 0x00, 0xc0] = some ⟨0x3f800000, 0xc0000000, 0, 0⟩ :=
  ⟨_, rfl, by decide +kernel⟩

end PreCore.Uni
