import Verif.Props.ReflectorText
/-!
# C24: an assignment touches only its field
-/
namespace PreCore.Refl
open CNum Spec Supercore

/-- `o'` differs from `o` at most in the bytes `a .. b-1` (and in strings starting there). -/
def SameOutside (a b : Nat) (o o' : Obj) : Prop := ∀ x, x < a ∨ b ≤ x → o'.mem x = o.mem x ∧ o'.strs x = o.strs x

theorem SameOutside.refl (a b : Nat) (o : Obj) : SameOutside a b o o := fun _ _ => ⟨rfl, rfl⟩

theorem SameOutside.trans {a b : Nat} {o p q : Obj} (h1 : SameOutside a b o p) (h2 : SameOutside a b p q) : SameOutside a b o q :=
  fun x hx => ⟨(h2 x hx).1.trans (h1 x hx).1, (h2 x hx).2.trans (h1 x hx).2⟩

theorem SameOutside.mono {a b a' b' : Nat} {o p : Obj} (h : SameOutside a b o p) (h1 : a' ≤ a) (h2 : b ≤ b') : SameOutside a' b' o p :=
  fun x hx => h x (by omega)

theorem same_write (o : Obj) (a : Nat) (bs : List Byte) (n : Nat) (h : bs.length ≤ n) : SameOutside a (a + n) o (o.write a bs) :=
  fun x hx => ⟨write_mem_out _ _ _ _ (by omega), rfl⟩

/-- Bytes a field occupies. A `std::string` is represented by its address. -/
def size (r : RType) : Nat :=
  match r.type with
  | .Bool | .String => 1
  | .Integer | .UnsignedInteger | .FloatingPoint | .Enum | .EnumFlags => r.subSize.toNat
  | .BitFieldMember => 8
  | .Array | .Vector | .ArrayClass => r.subSize.toNat * r.numItems.toNat
  | _ => 0

/-- Types that are neither lists nor bit-field members. -/
def IsScalar : RT → Prop
  | .Array | .Vector | .ArrayClass | .BitFieldMember => False
  | _ => True

def IsList (t : RT) : Prop := t = .Array ∨ t = .Vector ∨ t = .ArrayClass

/-- Types for which an empty text stores nothing. -/
def Quiet : RT → Prop
  | .Bool | .EnumFlags | .String | .BitFieldMember => False
  | _ => True

theorem storeBits_same {w : Nat} (o : Obj) (a n : Nat) (r : Err × Option (BitVec w)) : SameOutside a (a + n) o (storeBits o a n r).2 := by
  unfold storeBits
  split
  · exact .refl _ _ _
  · exact same_write _ _ _ _ (by rw [toLE_length]; omega)

theorem setEnum_len (env : Env) (t h n) : ∀ bs, (setEnum env t h n).2 = some bs → bs.length = n := by
  intro bs hb
  unfold setEnum at hb
  simp only at hb
  split at hb
  · cases hb
  · split at hb
    · cases hb
    · cases hb
    · simp only [Option.some.injEq] at hb; rw [← hb, u64Bytes, toLE_length]

theorem setEnumFlags_len (env : Env) (t h n) : ∀ bs, (setEnumFlags env t h n).2 = some bs → bs.length = n := by
  intro bs hb
  unfold setEnumFlags at hb
  split at hb
  · cases hb
  · simp only [Option.some.injEq] at hb; rw [← hb, u64Bytes, toLE_length]

theorem storeBytes_same (o : Obj) (a n : Nat) (r : Err × Option (List Byte)) (h : ∀ bs, r.2 = some bs → bs.length = n) :
    SameOutside a (a + n) o (storeBytes o a r).2 := by
  unfold storeBytes
  split
  · exact .refl _ _ _
  · rename_i bs hb
    exact same_write _ _ _ _ (by rw [h bs hb]; omega)

theorem scalar_frame (env : Env) (f : Nat) (r : RType) (t : Text) (a : Nat) (o : Obj) (hs : IsScalar r.type) :
    SameOutside a (a + size r) o (member env f r t a o).2 := by
  cases f with
  | zero => exact .refl _ _ _
  | succ f =>
    unfold member size
    cases hty : r.type <;> simp only
    case Bool => exact same_write _ _ _ _ (by simp)
    case Integer =>
      split
      · rename_i h; rw [h]; exact storeBits_same _ _ _ _
      · rename_i h; rw [h]; exact storeBits_same _ _ _ _
      · rename_i h; rw [h]; exact storeBits_same _ _ _ _
      · rename_i h; rw [h]; exact storeBits_same _ _ _ _
      · exact .refl _ _ _
    case UnsignedInteger =>
      split
      · rename_i h; rw [h]; exact storeBits_same _ _ _ _
      · rename_i h; rw [h]; exact storeBits_same _ _ _ _
      · rename_i h; rw [h]; exact storeBits_same _ _ _ _
      · rename_i h; rw [h]; exact storeBits_same _ _ _ _
      · exact .refl _ _ _
    case FloatingPoint =>
      split
      · rename_i h; rw [h]; exact storeBits_same _ _ _ _
      · rename_i h; rw [h]; exact storeBits_same _ _ _ _
      · exact .refl _ _ _
    case Enum => exact storeBytes_same _ _ _ _ (setEnum_len _ _ _ _)
    case EnumFlags => exact storeBytes_same _ _ _ _ (setEnumFlags_len _ _ _ _)
    case String =>
      intro x hx
      refine ⟨rfl, ?_⟩
      simp only [Obj.writeStr]
      rw [if_neg (by omega)]
    all_goals first | exact .refl _ _ _ | (exact absurd hs (by rw [hty]; simp [IsScalar]))

theorem stoll_nil (b : Nat) : stoll b [] = .invalid := by
  unfold stoll parse; simp [skipSpace, sign, hexPrefix, digits]
theorem stoull_nil (b : Nat) : stoull b [] = .invalid := by
  unfold stoull parse; simp [skipSpace, sign, hexPrefix, digits]

theorem setArray_nil (assign op cl r a) (o : Obj) : (setArray assign op cl [] r a o).2 = o := by
  unfold setArray
  have : StringView.find [] [op] 0 = .npos := by
    unfold StringView.find; rw [if_pos (by simp)]
  rw [this]

theorem quiet_empty (env : Env) (f : Nat) (r : RType) (a : Nat) (o : Obj) (hq : Quiet r.type) : (member env f r [] a o).2 = o := by
  cases f with
  | zero => rfl
  | succ f =>
    unfold member
    cases hty : r.type <;> simp only [skipStart]
    case Integer => split <;> simp [setSigned, stoll_nil, storeBits]
    case UnsignedInteger => split <;> simp [setUnsigned, stoull_nil, storeBits]
    case FloatingPoint => split <;> simp [setFloat, skipSpace, storeBits]
    case Enum => simp [setEnum, skipEnd, skipEndRev, storeBytes]
    case Array => exact setArray_nil ..
    case Vector => exact setArray_nil ..
    case ArrayClass => exact setArray_nil ..
    all_goals (exact absurd hq (by rw [hty]; simp [Quiet]))

theorem setItems_frame (assign : Text → Nat → Obj → Err × Obj) (numItems subSize base esz : Nat)
    (hf : ∀ t a o, SameOutside a (a + esz) o (assign t a o).2) (he : ∀ a o, (assign [] a o).2 = o) (hsz : esz ≤ subSize)
    (items : List Text) : ∀ i o, SameOutside base (base + subSize * numItems) o (setItems assign numItems subSize base items i o).2 := by
  induction items with
  | nil => intro i o; exact .refl _ _ _
  | cons t ts ih =>
    intro i o
    unfold setItems
    generalize (skipStart false t).1 = s
    simp only
    by_cases h1 : s = [] ∧ i < numItems
    · rw [if_pos h1]; exact .refl _ _ _
    · rw [if_neg h1]
      by_cases h2 : s ≠ [] ∧ i ≥ numItems
      · rw [if_pos h2]; exact .refl _ _ _
      · rw [if_neg h2]
        refine SameOutside.trans ?_ (ih _ _)
        by_cases hs : s = []
        · rw [hs, he]; exact .refl _ _ _
        · have hi : i < numItems := by
            apply Nat.lt_of_not_le; intro h; exact h2 ⟨hs, h⟩
          refine (hf s _ o).mono (by omega) ?_
          have : subSize * (i + 1) ≤ subSize * numItems := Nat.mul_le_mul_left _ (by omega)
          rw [Nat.mul_add, Nat.mul_one] at this
          omega

theorem setArray_frame (assign : Text → Nat → Obj → Err × Obj) (op cl t) (r : RType) (a : Nat) (o : Obj) (esz : Nat)
    (hf : ∀ t a o, SameOutside a (a + esz) o (assign t a o).2) (he : ∀ a o, (assign [] a o).2 = o) (hsz : esz ≤ r.subSize.toNat) :
    SameOutside a (a + r.subSize.toNat * r.numItems.toNat) o (setArray assign op cl t r a o).2 := by
  unfold setArray
  split
  · split
    · exact .refl _ _ _
    · simp only
      split
      · exact .refl _ _ _
      · exact setItems_frame assign _ _ a esz hf he hsz _ _ _
  · exact .refl _ _ _

/-- Lists of scalars whose elements fit the element stride. -/
def ScalarList (r : RType) : Prop :=
  IsList r.type ∧ IsScalar r.subType ∧ Quiet r.subType ∧ size (elemType r) ≤ r.subSize.toNat

/-- Field descriptions covered by the frame theorem: scalars, lists of scalars, lists of vectors of scalars — with
element types for which an empty text stores nothing (see `array_overrun_violated` for the others). -/
def WF (r : RType) : Prop :=
  IsScalar r.type ∨ ScalarList r ∨
  (IsList r.type ∧ r.subType = .Vector ∧ ScalarList (elemType r) ∧ size (elemType r) ≤ r.subSize.toNat)

theorem list_frame (env : Env) (f : Nat) (r : RType) (t : Text) (a : Nat) (o : Obj) (hl : IsList r.type) (esz : Nat)
    (hf : ∀ t a o, SameOutside a (a + esz) o (member env f (elemType r) t a o).2)
    (he : ∀ a o, (member env f (elemType r) [] a o).2 = o) (hsz : esz ≤ r.subSize.toNat) :
    SameOutside a (a + size r) o (member env (f + 1) r t a o).2 := by
  unfold member size
  rcases hl with h | h | h <;> rw [h] <;> exact setArray_frame _ _ _ _ _ _ _ esz hf he hsz

theorem elemType_scalar {r : RType} (h : IsScalar r.subType) : (elemType r).type = r.subType := by
  unfold elemType
  rw [if_neg]
  intro hv; rw [hv] at h; exact h

theorem scalarList_frame (env : Env) (f : Nat) (r : RType) (t : Text) (a : Nat) (o : Obj) (h : ScalarList r) :
    SameOutside a (a + size r) o (member env f r t a o).2 := by
  obtain ⟨h1, h2, h3, h4⟩ := h
  cases f with
  | zero => exact .refl _ _ _
  | succ f =>
    have ht := elemType_scalar h2
    exact list_frame env f r t a o h1 _ (fun t a o => scalar_frame env f _ t a o (by rw [ht]; exact h2))
      (fun a o => quiet_empty env f _ a o (by rw [ht]; exact h3)) h4

theorem member_frame (env : Env) (f : Nat) (r : RType) (t : Text) (a : Nat) (o : Obj) (h : WF r) :
    SameOutside a (a + size r) o (member env f r t a o).2 := by
  rcases h with h | h | ⟨h1, h2, h3, h4⟩
  · exact scalar_frame env f r t a o h
  · exact scalarList_frame env f r t a o h
  · cases f with
    | zero => exact .refl _ _ _
    | succ f =>
      refine list_frame env f r t a o h1 _ (fun t a o => scalarList_frame env f _ t a o h3) (fun a o => quiet_empty env f _ a o ?_) h4
      have : (elemType r).type = .Vector := by unfold elemType; rw [if_pos h2]
      rw [this]; trivial

/-- C24: assigning any text to a field by name, by index, or to one of its elements changes nothing outside the field
(the element), and an unknown name or index changes nothing at all and reports an invalid destination.
Missing for the full statement: lists of bools, flags or strings (`array_overrun_violated`) and out-of-range element
numbers (`element_overrun_violated`). Bit-field members are covered by `bitmember_partial`. -/
theorem frame_partial (env : Env) (c : ClassTab) (t : Text) (o : Obj) :
    (∀ h r, typeOf c h = some r → WF r →
      SameOutside r.offset.toNat (r.offset.toNat + size r) o (setByName env c h t o).2) ∧
    (∀ id r, typeAt c id = some r → WF r →
      SameOutside r.offset.toNat (r.offset.toNat + size r) o (setByID env c id t o).2) ∧
    (∀ h, typeOf c h = none → setByName env c h t o = (.InvalidDestination, o) ∧
      (∀ k, setSubByName env c h t k o = (.InvalidDestination, o)) ∧
      ∀ k e, setElemByName env c h t k e o = (.InvalidDestination, o)) ∧
    (∀ id, c.types.length ≤ id → setByID env c id t o = (.InvalidDestination, o)) := by
  have hnb : ∀ r : RType, WF r → r.type ≠ .BitFieldMember := by
    intro r h hb
    rcases h with h | h | h
    · rw [hb] at h; exact h
    · have := h.1; rw [hb] at this; rcases this with h | h | h <;> cases h
    · have := h.1; rw [hb] at this; rcases this with h | h | h <;> cases h
  refine ⟨?_, ?_, ?_, ?_⟩
  · intro h r hr hw
    unfold setByName setValue setMember
    rw [hr]
    simp only [if_neg (hnb r hw)]
    exact member_frame _ _ _ _ _ _ hw
  · intro id r hr hw
    unfold setByID setValue setMember
    rw [hr]
    simp only [if_neg (hnb r hw)]
    exact member_frame _ _ _ _ _ _ hw
  · intro h hn
    unfold setByName setSubByName setElemByName setSubOf
    rw [hn]
    exact ⟨rfl, fun _ => rfl, fun _ _ => rfl⟩
  · intro id hid
    unfold setByID typeAt
    rw [List.getElem?_eq_none hid]

/-- C24 for the element setters: `SetReflectedValue(name, text, i)` with `i` below the number of elements changes only
element `i`, and `SetReflectedValue(name, text, i, j)` with `j` below the number of components only component `j`
of vector `i`. -/
theorem element_frame_partial (env : Env) (r : RType) (t : Text) (o : Obj) (i : Nat) :
    (WF (elemType r) →
      SameOutside (r.offset.toNat + r.subSize.toNat * i) (r.offset.toNat + r.subSize.toNat * i + size (elemType r)) o
        (setValueSub env r t i o).2) ∧
    (r.subType = .Vector → IsScalar (decType r.typeHash) → ∀ j,
      let b := r.offset.toNat + r.subSize.toNat * i + (decSize r.typeHash).toNat * j
      SameOutside b (b + size { r with subSize := decSize r.typeHash, type := decType r.typeHash }) o
        (setValueElem env r t i j o).2) := by
  constructor
  · intro hw
    exact member_frame _ _ _ _ _ _ hw
  · intro hv hs j b
    unfold setValueElem
    rw [if_neg (by simp [hv])]
    split
    · exact .refl _ _ _
    · exact scalar_frame _ _ _ _ _ _ hs

/-- The typed setters: only the selected element changes, and an element number at or past the end is refused. -/
theorem typed_frame (r : RType) (v : BitVec 64) (i : Nat) (o : Obj) (narrow : BitVec 64 → BitVec 32) :
    let b := r.offset.toNat + i * r.subSize.toNat
    SameOutside b (b + r.subSize.toNat) o (setValueInt r v i o).2 ∧
    SameOutside b (b + r.subSize.toNat) o (setValueUInt r v i o).2 ∧
    SameOutside b (b + r.subSize.toNat) o (setValueFloat narrow r v i o).2 ∧
    (0 < i → r.numItems.toNat ≤ i → setValueInt r v i o = (.OutOfRange, o) ∧ setValueUInt r v i o = (.OutOfRange, o) ∧
      setValueFloat narrow r v i o = (.OutOfRange, o)) := by
  intro b
  have hdest : ∀ a ty, typedDest r i = .ok (a, ty) → a = b := by
    intro a ty h
    unfold typedDest at h
    split at h
    · simp only [Except.ok.injEq, Prod.mk.injEq] at h; rw [← h.1]; simp [b, *]
    · split at h
      all_goals first
        | (split at h
           · cases h
           · simp only [Except.ok.injEq, Prod.mk.injEq] at h; exact h.1.symm)
        | cases h
  have hw : ∀ bs : List Byte, bs.length = r.subSize.toNat → SameOutside b (b + r.subSize.toNat) o (o.write b bs) :=
    fun bs hb => same_write _ _ _ _ (by omega)
  refine ⟨?_, ?_, ?_, ?_⟩
  · unfold setValueInt
    split
    · exact .refl _ _ _
    · rename_i a ty hd
      rw [hdest a ty hd]
      split
      · exact .refl _ _ _
      · exact hw _ (toLE_length _ _)
  · unfold setValueUInt
    split
    · exact .refl _ _ _
    · rename_i a ty hd
      rw [hdest a ty hd]
      split
      · exact .refl _ _ _
      · exact hw _ (toLE_length _ _)
  · unfold setValueFloat
    split
    · exact .refl _ _ _
    · rename_i a ty hd
      rw [hdest a ty hd]
      split
      · exact .refl _ _ _
      · split
        · rename_i h; exact hw _ (by rw [toLE_length, h])
        · rename_i h; exact hw _ (by rw [toLE_length, h])
        · exact .refl _ _ _
  · intro h0 hge
    have : typedDest r i = .error .OutOfRange := by
      unfold typedDest
      rw [if_neg (by omega)]
      split <;> first | rfl | rw [if_pos (by omega)]
    unfold setValueInt setValueUInt setValueFloat
    rw [this]
    exact ⟨rfl, rfl, rfl⟩

/-- A class with a bool[1] at 0 (name 1), an int16[2] at 2 (name 2), a float[2] vector array at 8 (name 3; two vectors of
two int8). -/
def exArr : ClassTab := ⟨[⟨.Array, .Bool, 1, 0, 1, 0, 1, 0⟩, ⟨.Array, .Integer, 2, 1, 2, 2, 2, 0⟩,
  ⟨.Array, .Vector, 2, 2, 2, 8, 3, 0x00020101⟩], none⟩

/-- C24 is violated for lists of bools (likewise flags and strings): a blank item after the last element is assigned to
the place behind the list. Text "{true, }" on a bool[1] clears the byte after the array. -/
theorem array_overrun_violated :
    let t : Text := [0x7b#8] ++ tTrue ++ [0x2c#8, 0x20#8, 0x7d#8]
    (setByName exEnv exArr 1 t exObj).1 = .None ∧ exObj.mem 1 = 0xaa#8 ∧ (setByName exEnv exArr 1 t exObj).2.mem 1 = 0#8 := by
  decide +kernel

/-- C24 is violated for element numbers: `SetReflectedValue(name, text, subID)` performs no bounds check — element 3 of
the int16[2] field is stored behind the field — and the component check of the four argument form compares with the
component size. -/
theorem element_overrun_violated :
    (setSubByName exEnv exArr 2 [0x37#8] 3 exObj).1 = .None ∧ exObj.nat 8 2 = 0xaaaa ∧
    (setSubByName exEnv exArr 2 [0x37#8] 3 exObj).2.nat 8 2 = 7 := by
  decide +kernel

theorem component_check_violated :
    (decNum 0x00020104#32).toNat = 2 ∧ (decSize 0x00020104#32).toNat = 1 ∧
    (setElemByName exEnv exArr 3 [0x37#8] 0 1 exObj).1 = .OutOfRange ∧
    (setElemByName exEnv ⟨[⟨.Array, .Vector, 8, 0, 1, 0, 1, 0x00020401⟩], none⟩ 1 [0x37#8] 0 3 exObj).1 = .None ∧
    (setElemByName exEnv ⟨[⟨.Array, .Vector, 8, 0, 1, 0, 1, 0x00020401⟩], none⟩ 1 [0x37#8] 0 3 exObj).2.nat 12 4 = 7 := by
  decide +kernel

example : WF ⟨.Array, .Integer, 2, 1, 2, 2, 2, 0⟩ ∧ WF ⟨.Array, .Vector, 2, 2, 2, 8, 3, 0x00020101⟩ ∧
    typeOf exArr 3 = some ⟨.Array, .Vector, 2, 2, 2, 8, 3, 0x00020101⟩ := by
  refine ⟨Or.inr (Or.inl ⟨Or.inl rfl, trivial, trivial, by decide⟩), Or.inr (Or.inr ⟨Or.inl rfl, rfl, ⟨?_, ?_, ?_, by decide⟩, by decide⟩), rfl⟩
  · exact Or.inr (Or.inl rfl)
  · show IsScalar (decType 0x00020101#32)
    have : decType 0x00020101#32 = .Integer := by decide
    rw [this]; trivial
  · show Quiet (decType 0x00020101#32)
    have : decType 0x00020101#32 = .Integer := by decide
    rw [this]; trivial

end PreCore.Refl
