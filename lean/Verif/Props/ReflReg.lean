import Verif.Model.ReflReg
import Verif.Props.ReflectorFrame
/-!
# C64, C65: the preprocessor loops and the generated member tables
-/
namespace PreCore.Refl
open CNum

/-! ## C64: the loops visit every item once, in order -/

theorem staticForAdd_eq {α : Type} (l : List α) : staticForAdd l.length l = l.map some := by
  induction l with
  | nil => rfl
  | cons a l ih => simp only [List.length_cons, staticForAdd, List.head?_cons, List.tail_cons, ih, List.map_cons]

theorem staticForArgIDAdd_eq {α : Type} (l : List α) : ∀ k, staticForArgIDAdd l.length k l = (l.map some).mapIdx (fun i a => (k + i, a)) := by
  induction l with
  | nil => intro k; rfl
  | cons a l ih =>
    intro k
    simp only [List.length_cons, staticForArgIDAdd, List.head?_cons, List.tail_cons, ih, List.map_cons, List.mapIdx_cons]
    congr 1
    apply List.ext_getElem? ; intro i
    simp only [List.getElem?_mapIdx]
    congr 1; funext x; rw [show k + 1 + i = k + (i + 1) by omega]

theorem nargs_table : ∀ n : Fin 90, 1 ≤ n.val → n.val ≠ 87 → n.val ≠ 88 → nargsTail[89 - n.val]? = some n.val := by decide

theorem vaNArgs_num {α : Type} (l : List α) (h : l.length ≤ 89) : vaNArgs l = (nargsTail[89 - l.length]?).map MArg.num := by
  unfold vaNArgs
  rw [List.getElem?_append_right (by simpa using h), List.length_map, List.getElem?_map]

/-- Lengths for which `VA_NARGS` counts right. -/
def GoodCount (n : Nat) : Prop := 1 ≤ n ∧ n ≤ 89 ∧ n ≠ 87 ∧ n ≠ 88

theorem vaNArgs_good {α : Type} (l : List α) (h : GoodCount l.length) : vaNArgs l = some (.num l.length) := by
  rw [vaNArgs_num l h.2.1, nargs_table ⟨l.length, by have := h.2.1; omega⟩ h.1 h.2.2.1 h.2.2.2]
  rfl

/-- C64: a macro loop over a list of 1 to 86, or 89, items is expanded to one use of the evaluator per item, in the order of
the list and (for the numbered loop) with the position of the item; a list of 90 or more items is rejected by the compiler.
Missing: 87 and 88 items, see `macro_loop_violated`. -/
theorem macro_loop_partial {α : Type} (l : List α) :
    (GoodCount l.length →
      staticFor l = some (l.map some) ∧
      ∃ r : List (Nat × Option α), staticForArgID l = some r ∧ r.length = l.length ∧ ∀ (i : Nat) (a : α), l[i]? = some a → r[i]? = some (i, some a)) ∧
    (90 ≤ l.length → staticFor l = none ∧ staticForArgID l = none) := by
  constructor
  · intro h
    unfold staticFor staticForArgID
    rw [vaNArgs_good l h]
    refine ⟨by simp only [staticForAdd_eq], _, rfl, ?_, ?_⟩
    · rw [staticForArgIDAdd_eq]; simp
    · intro i a hi
      rw [staticForArgIDAdd_eq]
      simp [hi]
  · intro h
    have : vaNArgs l = (l[89]?).map MArg.item := by
      unfold vaNArgs
      rw [List.getElem?_append_left (by simp; omega), List.getElem?_map]
    unfold staticFor staticForArgID
    rw [this, List.getElem?_eq_getElem (by omega)]
    exact ⟨rfl, rfl⟩

/-- C64 is violated for lists of 88 items: the count is 87 and the last item is silently dropped, whatever the items;
87 items are counted 88 and the loop goes over one empty item more. -/
theorem macro_loop_violated {α : Type} (l : List α) :
    (l.length = 88 → vaNArgs l = some (.num 87) ∧ staticFor l = some ((l.take 87).map some)) ∧
    (l.length = 87 → vaNArgs l = some (.num 88) ∧ staticFor l = some (l.map some ++ [none])) := by
  have aux : ∀ n (l : List α), n ≤ l.length → staticForAdd n l = (l.take n).map some := by
    intro n
    induction n with
    | zero => intro l _; simp [staticForAdd]
    | succ n ih =>
      intro l hl
      cases l with
      | nil => simp at hl
      | cons a l => simp only [staticForAdd, List.head?_cons, List.tail_cons, List.take_succ_cons, List.map_cons]; rw [ih l (by simpa using hl)]
  have aux2 : ∀ l : List α, staticForAdd (l.length + 1) l = l.map some ++ [none] := by
    intro l
    induction l with
    | nil => rfl
    | cons a l ih => simp only [List.length_cons, staticForAdd, List.head?_cons, List.tail_cons, List.map_cons, List.cons_append]; rw [← ih]; rfl
  constructor
  · intro h
    have hv : vaNArgs l = some (.num 87) := by rw [vaNArgs_num l (by omega), h]; rfl
    refine ⟨hv, ?_⟩
    unfold staticFor
    rw [hv]
    simp only
    rw [aux 87 l (by omega)]
  · intro h
    have hv : vaNArgs l = some (.num 88) := by rw [vaNArgs_num l (by omega), h]; rfl
    refine ⟨hv, ?_⟩
    unfold staticFor
    rw [hv]
    simp only
    have := aux2 l
    rw [h] at this
    rw [this]

/-! ## C65: the generated table describes the class -/

/-- A scalar cell of an object: address, kind and number of bytes. -/
structure Cell where
  addr : Nat
  kind : RT
  bytes : Nat
deriving DecidableEq, Repr

/-- The scalar cells of a C++ object of type `t` at address `a`: an array of `n` elements has its elements
`sizeof(element)` bytes apart, a vector its components. -/
def CTy.cells : CTy → Nat → List Cell
  | .arr e n, a => (List.range n).flatMap (fun i => e.cells (a + i * e.sizeof))
  | .vec c d, a => (List.range d).flatMap (fun i => c.cells (a + i * c.sizeof))
  | t, a => [⟨a, t.ty, t.sizeof⟩]

/-- The scalar cells a member description stands for, the way the reflection functions walk it (element `i` at
`address + subSize * i`, reflector.cpp:376, 859-865), down to three levels. -/
def RType.cells : Nat → RType → Nat → List Cell
  | 0, _, _ => []
  | f + 1, r, a =>
    match r.type with
    | .Array | .Vector | .ArrayClass =>
      (List.range r.numItems.toNat).flatMap (fun i => RType.cells f (elemType r) (a + r.subSize.toNat * i))
    | .Bool => [⟨a, .Bool, 1⟩]
    | .CString => [⟨a, .CString, 8⟩]
    | .String => [⟨a, .String, 32⟩]
    | k => [⟨a, k, r.subSize.toNat⟩]

def CTy.Scalar : CTy → Prop
  | .arr _ _ | .vec _ _ => False
  | _ => True

/-- What fits the fields of `reflType`: scalars, vectors of scalars and arrays of these, elements shorter than 256 bytes and
fewer than 65536 of them. -/
def CTy.Fits : CTy → Prop
  | .arr e n => e.sizeof < 256 ∧ n < 65536 ∧ (e.Scalar ∨ ∃ c d, e = .vec c d ∧ c.Scalar ∧ c.sizeof < 256 ∧ d < 65536)
  | .vec c d => c.Scalar ∧ c.sizeof < 256 ∧ d < 65536
  | t => t.sizeof < 256

theorem RT.ofByte_toByte (t : RT) : RT.ofByte t.toByte = t := by cases t <;> rfl
theorem RT.toByte_lt (t : RT) : t.toByte < 15 := by cases t <;> decide

theorem vectorHash_dec (t : RT) (s : BitVec 8) (n : BitVec 16) :
    decType (vectorHash t s n) = t ∧ decSize (vectorHash t s n) = s ∧ decNum (vectorHash t s n) = n := by
  have hlt := t.toByte_lt
  refine ⟨?_, ?_, ?_⟩
  · unfold decType
    have : ((vectorHash t s n).extractLsb' 0 8) = BitVec.ofNat 8 t.toByte := by
      apply BitVec.eq_of_getLsbD_eq
      intro i hi
      unfold vectorHash
      simp only [BitVec.getLsbD_extractLsb', BitVec.getLsbD_or, BitVec.getLsbD_shiftLeft, BitVec.getLsbD_ofNat]
      have h1 : i < 8 := hi
      simp [h1, show i < 32 by omega, show i < 16 by omega]
    rw [this]
    rw [show (BitVec.ofNat 8 t.toByte).toNat = t.toByte by simp; omega]
    exact t.ofByte_toByte
  · unfold decSize
    apply BitVec.eq_of_getLsbD_eq
    intro i hi
    unfold vectorHash
    simp only [BitVec.getLsbD_extractLsb', BitVec.getLsbD_or, BitVec.getLsbD_shiftLeft, BitVec.getLsbD_ofNat, BitVec.zeroExtend,
      BitVec.getLsbD_setWidth]
    have : t.toByte.testBit (8 + i) = false := Nat.testBit_lt_two_pow (by
      calc t.toByte < 15 := hlt
        _ ≤ 2 ^ 8 := by decide
        _ ≤ 2 ^ (8 + i) := Nat.pow_le_pow_right (by decide) (by omega))
    simp [this, hi, show 8 + i < 32 by omega, show 8 + i < 16 by omega, show 8 + i - 8 = i by omega, show i < 32 by omega]
  · unfold decNum
    apply BitVec.eq_of_getLsbD_eq
    intro i hi
    unfold vectorHash
    simp only [BitVec.getLsbD_extractLsb', BitVec.getLsbD_or, BitVec.getLsbD_shiftLeft, BitVec.getLsbD_ofNat, BitVec.zeroExtend,
      BitVec.getLsbD_setWidth]
    have h1 : t.toByte.testBit (16 + i) = false := Nat.testBit_lt_two_pow (by
      calc t.toByte < 15 := hlt
        _ ≤ 2 ^ 16 := by decide
        _ ≤ 2 ^ (16 + i) := Nat.pow_le_pow_right (by decide) (by omega))
    have h2 : s.getLsbD (16 + i - 8) = false := BitVec.getLsbD_of_ge _ _ (by omega)
    simp [h1, h2, hi, show 16 + i < 32 by omega, show 16 + i - 16 = i by omega, show i < 32 by omega]

theorem CTy.subSize_toNat {t : CTy} (h : t.Fits) :
    t.subSize.toNat = (match t with | .cstr | .str => 0 | .arr e _ => e.sizeof | .vec c _ => c.sizeof | t => t.sizeof) := by
  cases t <;> simp only [CTy.subSize, CTy.Fits, CTy.sizeof] at h ⊢ <;> simp <;> omega

theorem CTy.scalar_cells {t : CTy} (hs : t.Scalar) (hf : t.sizeof < 256) (r : RType) (f a : Nat) (hty : r.type = t.ty)
    (hsz : (t ≠ .cstr ∧ t ≠ .str ∧ t ≠ .bool) → r.subSize.toNat = t.sizeof) : RType.cells (f + 1) r a = t.cells a := by
  unfold RType.cells
  rw [hty]
  cases t <;> simp only [CTy.ty, CTy.cells, CTy.sizeof, CTy.Scalar] at hs ⊢ <;>
    first | rfl | (rw [hsz (by simp)]; rfl)

theorem elemType_vec (r : RType) (h : r.subType = .Vector) :
    elemType r = { r with type := .Vector, subType := decType r.typeHash, numItems := decNum r.typeHash, subSize := decSize r.typeHash } := by
  unfold elemType; rw [if_pos h]

theorem scalar_ty {t : CTy} (h : t.Scalar) : t.ty ≠ .Vector := by
  cases t <;> simp_all [CTy.Scalar, CTy.ty]

theorem vec_cells {c : CTy} {d : Nat} (hs : c.Scalar) (hc : c.sizeof < 256) (hd : d < 65536) (r : RType) (f a : Nat) (h1 : r.type = .Vector)
    (h2 : r.subType = c.ty) (h3 : r.subSize.toNat = c.sizeof) (h4 : r.numItems.toNat = d) :
    RType.cells (f + 2) r a = (CTy.vec c d).cells a := by
  rw [RType.cells, h1]
  simp only [CTy.cells, h4]
  congr 1
  funext i
  have he : (elemType r).type = c.ty ∧ (elemType r).subSize.toNat = c.sizeof := by
    unfold elemType
    rw [if_neg (by rw [h2]; exact scalar_ty hs)]
    exact ⟨h2, h3⟩
  rw [CTy.scalar_cells hs hc (elemType r) f _ he.1 (fun _ => he.2), h3, Nat.mul_comm]

/-- The description generated for a member that fits stands for exactly the cells of the member. -/
theorem buildType_cells (i : Nat) (m : Member) (h : m.ty.Fits) (a : Nat) : RType.cells 3 (buildType i m) a = m.ty.cells a := by
  obtain ⟨name, t, off⟩ := m
  simp only at h ⊢
  have hss := CTy.subSize_toNat h
  cases t with
  | arr e n =>
    obtain ⟨h1, h2, h3⟩ := h
    have hn : (buildType i ⟨name, .arr e n, off⟩).numItems.toNat = n := by simp [buildType, CTy.numItems]; omega
    have hz : (buildType i ⟨name, .arr e n, off⟩).subSize.toNat = e.sizeof := hss
    rw [RType.cells]
    simp only [buildType, CTy.ty, CTy.cells]
    change (List.range (buildType i ⟨name, .arr e n, off⟩).numItems.toNat).flatMap (fun j => RType.cells 2
      (elemType (buildType i ⟨name, .arr e n, off⟩)) (a + (buildType i ⟨name, .arr e n, off⟩).subSize.toNat * j)) = _
    rw [hn, hz]
    congr 1
    funext j
    rw [Nat.mul_comm]
    rcases h3 with hs | ⟨c, d, rfl, hs, hc, hd⟩
    · refine CTy.scalar_cells hs h1 _ 1 _ ?_ (fun _ => ?_)
      · unfold elemType; rw [if_neg (by exact scalar_ty hs)]; rfl
      · unfold elemType; rw [if_neg (by exact scalar_ty hs)]; exact hz
    · have hh := vectorHash_dec c.ty (BitVec.ofNat 8 c.sizeof) (BitVec.ofNat 16 d)
      rw [elemType_vec _ rfl]
      refine vec_cells hs hc hd _ 0 _ rfl ?_ ?_ ?_
      · exact hh.1
      · show (decSize (vectorHash c.ty (BitVec.ofNat 8 c.sizeof) (BitVec.ofNat 16 d))).toNat = _
        rw [hh.2.1]; simp; omega
      · show (decNum (vectorHash c.ty (BitVec.ofNat 8 c.sizeof) (BitVec.ofNat 16 d))).toNat = _
        rw [hh.2.2]; simp; omega
  | vec c d =>
    obtain ⟨h1, h2, h3⟩ := h
    refine vec_cells h1 h2 h3 _ 1 _ rfl rfl hss ?_
    simp [buildType, CTy.numItems]; omega
  | _ => exact CTy.scalar_cells (by trivial) h _ 2 _ rfl (fun hx => by first | exact hss | simp at hx)

/-- A class that fits the tables: a number of members the macros count right, each of them at an offset below 64 KiB. -/
structure Registrable (ms : List Member) : Prop where
  count : GoodCount ms.length
  fits : ∀ m ∈ ms, m.ty.Fits ∧ m.offset < 65536

/-- `RefersTo t h`: a value of type `t`, or each of its elements, is of the enum or class registered under the hash `h`. -/
inductive RefersTo : CTy → BitVec 32 → Prop
  | enum (n h) : RefersTo (.enum n h) h
  | flags (n h) : RefersTo (.flags n h) h
  | cls (n h) : RefersTo (.cls n h) h
  | bits (n h) : RefersTo (.bits n h) h
  | arr {e h} (n) : RefersTo e h → RefersTo (.arr e n) h

theorem RefersTo.hash {t : CTy} {h : BitVec 32} (r : RefersTo t h) : t.hash = h := by
  induction r with
  | arr n _ ih => exact ih
  | _ => rfl

theorem mapM_some {α β : Type} (f : α → Option β) (g : α → β) : ∀ l : List α, (∀ a ∈ l, f a = some (g a)) → l.mapM f = some (l.map g)
  | [], _ => rfl
  | a :: l, h => by
    rw [List.mapM_cons, h a (by simp), mapM_some f g l (fun b hb => h b (by simp [hb]))]
    rfl

theorem buildTable_eq (ms : List Member) (h : GoodCount ms.length) : buildTable ms = some (ms.mapIdx buildType) := by
  unfold buildTable staticForArgID
  rw [vaNArgs_good ms h]
  simp only [staticForArgIDAdd_eq]
  have : ((ms.map some).mapIdx (fun i a => (0 + i, a))) = ms.mapIdx (fun i a => (i, some a)) := by
    apply List.ext_getElem?; intro i
    simp only [List.getElem?_mapIdx, List.getElem?_map, Nat.zero_add, Option.map_map]
    rfl
  rw [this]
  have key : ∀ (l : List Member) (k : Nat), (l.mapIdx (fun i a => (k + i, some a))).mapM (fun p : Nat × Option Member => p.2.map (buildType p.1)) =
      some (l.mapIdx (fun i a => buildType (k + i) a)) := by
    intro l
    induction l with
    | nil => intro k; rfl
    | cons a l ih =>
      intro k
      simp only [List.mapIdx_cons, List.mapM_cons]
      have e1 : (fun (i : Nat) (a : Member) => (k + (i + 1), some a)) = fun i a => (k + 1 + i, some a) := by
        funext i a; congr 1; omega
      have e2 : (fun (i : Nat) (a : Member) => buildType (k + (i + 1)) a) = fun i a => buildType (k + 1 + i) a := by
        funext i a; congr 1; omega
      rw [e1, e2, ih]
      rfl
  have := key ms 0
  simpa using this

/-- C65: `REFLECTOR_CREATE` on a class within the limits gives a table with one entry per listed member, in order, whose `ID`
is its position, whose name hash and offset are the member's, and which refers to the enum or class of the
member, and whose description covers exactly the scalar cells of the member: every array element and vector component at its C++ address, with its kind and size.
Missing: the limits — see `table_limits_violated` and `macro_loop_violated` — and arrays of arrays
(`nested_array_violated`). -/
theorem table_describes_partial (ms : List Member) (h : Registrable ms) :
    ∃ tab : List RType, buildTable ms = some tab ∧ tab.length = ms.length ∧
      ∀ (i : Nat) (m : Member), ms[i]? = some m → ∃ r : RType, tab[i]? = some r ∧ r.ID.toNat = i ∧ r.valueNameHash = m.name ∧
        r.offset.toNat = m.offset ∧ (∀ h, RefersTo m.ty h → r.typeHash = h) ∧ ∀ a, r.cells 3 a = m.ty.cells a := by
  refine ⟨_, buildTable_eq ms h.count, by simp, ?_⟩
  intro i m hi
  have hm := h.fits m (List.mem_of_getElem? hi)
  have hlt : i < ms.length := (List.getElem?_eq_some_iff.mp hi).1
  have := h.count.2.1
  refine ⟨buildType i m, by simp [hi], ?_, rfl, ?_, fun h hr => hr.hash, fun a => buildType_cells i m hm.1 a⟩
  · simp [buildType]; omega
  · have := hm.2
    simp [buildType]; omega

end PreCore.Refl
