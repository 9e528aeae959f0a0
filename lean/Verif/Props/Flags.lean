import Verif.Model.Flags
/-!
# C06: a `Flags` object is a set of enumerators
-/
namespace PreCore.Flags

/-- Specification: a set of enumerators as a membership function. -/
abbrev EnumSet := Nat → Bool

/-- Specification of one operation on a set of enumerators. -/
def specStep {w : Nat} (s : EnumSet) : Op w → EnumSet
  | .set p b => fun e => if e = p then b else s e
  | .add p => fun e => if e = p then true else s e
  | .remove p => fun e => if e = p then false else s e
  | .assign raw => fun e => raw.toNat.testBit e

/-- The enumerator named by an operation, if any, fits the storage. -/
def Op.InRange {w : Nat} : Op w → Prop
  | .set p _ => p < w
  | .add p => p < w
  | .remove p => p < w
  | .assign _ => True

theorem mask_getLsbD (w p k : Nat) (hp : p < w) : (makeMask w p).getLsbD k = decide (k = p) := by
  simp only [makeMask, BitVec.getLsbD_shiftLeft, BitVec.getLsbD_one]
  by_cases h : k = p
  · subst h; simp [hp]; omega
  · simp [h]; omega

theorem test_eq {w : Nat} (v : BitVec w) (p : Nat) (hp : p < w) : test v p = v.getLsbD p := by
  rw [test, Bool.eq_iff_iff, bne_iff_ne]
  constructor
  · intro h
    by_cases hb : v.getLsbD p = true
    · exact hb
    · exfalso; apply h
      apply BitVec.eq_of_getLsbD_eq
      intro k hk
      rw [BitVec.getLsbD_and, mask_getLsbD w p k hp]
      by_cases hkp : k = p
      · subst hkp; simp [hb]
      · simp [hkp]
  · intro h hc
    have := congrArg (fun x => x.getLsbD p) hc
    simp only [BitVec.getLsbD_and, mask_getLsbD w p p hp, h] at this
    simp at this

theorem set_getLsbD {w : Nat} (v : BitVec w) (p : Nat) (b : Bool) (k : Nat) (hp : p < w) (hk : k < w) :
    (set v p b).getLsbD k = if k = p then b else v.getLsbD k := by
  unfold set
  by_cases hkp : k = p
  · subst hkp
    cases b <;> simp [mask_getLsbD w k k hp]
  · have hm := mask_getLsbD w p k hp
    cases b
    · rw [if_neg (by simp), BitVec.getLsbD_and, BitVec.getLsbD_not, hm]; simp [hkp, hk]
    · rw [if_pos rfl, BitVec.getLsbD_or, hm]; simp [hkp]

/-- C06: after any history of in-range operations, testing an enumerator answers exactly what the set
specification says. -/
theorem flags_refine_set {w : Nat} (ops : List (Op w)) (v : BitVec w) (s : EnumSet)
    (hs : ∀ e, e < w → test v e = s e) (hr : ∀ o ∈ ops, o.InRange) :
    ∀ e, e < w → test (run v ops) e = (ops.foldl specStep s) e := by
  induction ops generalizing v s with
  | nil => exact hs
  | cons o ops ih =>
    have ho := hr o (by simp)
    refine ih (step v o) (specStep s o) ?_ (fun o' h => hr o' (by simp [h]))
    intro e he
    rw [test_eq _ _ he]
    have hv := hs e he
    rw [test_eq _ _ he] at hv
    cases o with
    | set p b => simp only [step, specStep]; rw [set_getLsbD v p b e ho he, hv]
    | add p => simp only [step, specStep, add]; rw [set_getLsbD v p true e ho he, hv]
    | remove p => simp only [step, specStep, remove]; rw [set_getLsbD v p false e ho he, hv]
    | assign raw => simp [step, specStep, BitVec.testBit_toNat]

/-- C06 from the default constructor: nothing is a member before it was added. -/
theorem flags_history {w : Nat} (ops : List (Op w)) (hr : ∀ o ∈ ops, o.InRange) :
    ∀ e, e < w → test (run 0#w ops) e = (ops.foldl specStep (fun _ => false)) e :=
  flags_refine_set ops _ _ (fun e he => by rw [test_eq _ _ he]; simp) hr

/-- C06: the variadic constructor holds exactly the listed enumerators. -/
theorem flags_construct {w : Nat} (es : List Nat) (hr : ∀ p ∈ es, p < w) (e : Nat) (he : e < w) :
    test (unpack 0#w es) e = true ↔ e ∈ es := by
  have gen : ∀ (es : List Nat) (v : BitVec w), (∀ p ∈ es, p < w) →
      ((unpack v es).getLsbD e = true ↔ v.getLsbD e = true ∨ e ∈ es) := by
    intro es
    induction es with
    | nil => intro v _; simp [unpack]
    | cons p es ih =>
      intro v h
      rw [unpack, ih _ (fun q hq => h q (by simp [hq])), BitVec.getLsbD_or, mask_getLsbD w p e (h p (by simp))]
      simp [or_assoc]
  rw [test_eq _ _ he, gen es _ hr]; simp

/-- C06: two objects are equal exactly when they hold the same enumerators. -/
theorem flags_eq_iff {w : Nat} (a b : BitVec w) : eq a b = true ↔ ∀ e, e < w → test a e = test b e := by
  rw [eq, beq_iff_eq]
  constructor
  · rintro rfl _ _; rfl
  · intro h
    apply BitVec.eq_of_getLsbD_eq
    intro e he
    have := h e he
    rwa [test_eq _ _ he, test_eq _ _ he] at this

example : ∀ o ∈ ([.add 3, .set 7 true, .remove 3] : List (Op 8)), o.InRange := by
  intro o ho; simp at ho; rcases ho with rfl | rfl | rfl <;> simp [Op.InRange]
example : test (run 0#8 [.add 3, .set 7 true, .remove 3]) 7 = true := by decide

end PreCore.Flags
