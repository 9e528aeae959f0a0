import Verif.Props.ReflBin
import Verif.Props.ReflReg
/-!
# C146: loading a binary stream that nobody vouches for

`bin_roundtrip_partial` is about streams written by `Save`. Here the bytes are arbitrary: whatever they are, and whatever
`Load` answers, it has changed nothing but the reflected members of the object.
-/
namespace PreCore.ReflBin
open Refl Base128

/-! ## Specification -/

/-- A reading step consumes a prefix of the stream and changes nothing outside `S` (bytes, or with `true` strings). -/
def Safe (l : List Byte → Obj → RRes) (S : Bool → Nat → Prop) : Prop :=
  ∀ s o e s' o', l s o = some (e, s', o') → s' <:+ s ∧ ∀ b x, ¬ S b x → Same b x o' o

/-- Kinds stored as `subSize` bytes. -/
def isPlain : Refl.RT → Bool
  | .Integer | .Enum | .UnsignedInteger | .EnumFlags | .BitFieldClass | .Bool | .FloatingPoint => true
  | _ => false

/-- What a compiler guarantees for a member described by `r` of a class of `n` bytes, given the sizes of the classes: the
member ends inside the class. -/
def Ends (size : ClassDef → Nat) (reg : Registry) (r : RType) (n : Nat) : Prop :=
  match r.type with
  | .String => r.offset.toNat < n
  | .Class => ∀ c, reg r.typeHash = some c → r.offset.toNat + size c ≤ n
  | .Array | .ArrayClass | .Vector =>
    r.offset.toNat + r.numItems.toNat * r.subSize.toNat ≤ n ∧
    match r.subType with
    | .String => 0 < r.subSize.toNat
    | .CString => True
    | .Class => ∀ c, reg r.typeHash = some c → size c ≤ r.subSize.toNat
    | .Vector => isPlain (decType r.typeHash) = true ∧ (decNum r.typeHash).toNat * (decSize r.typeHash).toNat ≤ r.subSize.toNat
    | t => isPlain t = true
  | _ => r.offset.toNat + r.subSize.toNat ≤ n

/-- All members of a class end inside it, and know their place in the table. -/
def LaidOut (size : ClassDef → Nat) (reg : Registry) (c : ClassDef) : Prop :=
  ∀ i r, c.tab.types[i]? = some r → r.ID.toNat = i ∧ Ends size reg r (size c)

/-! ## Proof -/

theorem buReadLoop_suffix : ∀ n id v s w s', buReadLoop n id v s = some (w, s') → s' <:+ s := by
  intro n
  induction n with
  | zero => intro id v s w s' h; cases h; exact List.suffix_refl _
  | succ n ih =>
    intro id v s w s' h
    cases s with
    | nil => cases h
    | cons c s =>
      simp only [buReadLoop] at h
      split at h
      · simp only [Option.some.injEq, Prod.mk.injEq] at h
        exact h.2 ▸ List.suffix_cons c s
      · exact (ih _ _ _ _ _ h).trans (List.suffix_cons c s)

theorem buRead_suffix {s w s'} (h : buRead s = some (w, s')) : s' <:+ s := buReadLoop_suffix _ _ _ _ _ _ h

theorem biReadLoop_suffix : ∀ n id v s w s', biReadLoop n id v s = some (w, s') → s' <:+ s := by
  intro n
  induction n with
  | zero => intro id v s w s' h; cases h; exact List.suffix_refl _
  | succ n ih =>
    intro id v s w s' h
    cases s with
    | nil => cases h
    | cons c s =>
      simp only [biReadLoop] at h
      split at h
      · split at h
        · simp only [Option.some.injEq, Prod.mk.injEq] at h
          exact h.2 ▸ List.suffix_cons c s
        · exact (ih _ _ _ _ _ h).trans (List.suffix_cons c s)
      · exact (ih _ _ _ _ _ h).trans (List.suffix_cons c s)

theorem biRead_suffix {s w s'} (h : biRead s = some (w, s')) : s' <:+ s := biReadLoop_suffix _ _ _ _ _ _ h

theorem takeN_spec {n s a s'} (h : takeN n s = some (a, s')) : s' <:+ s ∧ a.length = n := by
  unfold takeN at h
  split at h
  · simp only [Option.some.injEq, Prod.mk.injEq] at h
    obtain ⟨rfl, rfl⟩ := h
    exact ⟨List.drop_suffix _ _, by simp; omega⟩
  · cases h

theorem skip_suffix {n s s'} (h : skip n s = some s') : s' <:+ s := by
  unfold skip at h
  split at h
  · cases h; exact List.drop_suffix _ _
  · cases h

theorem write_frame (o : Obj) (a n : Nat) (bs : List Byte) (h : bs.length = n) (b x) (hx : ¬ (b = false ∧ a ≤ x ∧ x < a + n)) :
    Same b x (o.write a bs) o := by
  unfold Same
  cases b with
  | true => rfl
  | false =>
    simp only [Bool.false_eq_true, if_false, Obj.write]
    rw [if_neg]
    intro h'
    exact hx ⟨rfl, by omega⟩

theorem elems_safe (li : Nat → List Byte → Obj → RRes) (S : Bool → Nat → Prop) : ∀ k i,
    (∀ j, i ≤ j → j < i + k → Safe (li j) S) → Safe (loadElems li k i) S := by
  intro k
  induction k with
  | zero => intro i _ s o e s' o' h; cases h; exact ⟨List.suffix_refl _, fun b x _ => Same.refl b x o⟩
  | succ k ih =>
    intro i hl s o e s' o' h
    simp only [loadElems] at h
    split at h
    · cases h
    · rename_i e1 s1 o1 h1
      obtain ⟨p1, p2⟩ := hl i (Nat.le_refl i) (by omega) s o e1 s1 o1 h1
      split at h
      · cases h; exact ⟨p1, p2⟩
      · obtain ⟨q1, q2⟩ := ih (i + 1) (fun j h1 h2 => hl j (by omega) (by omega)) s1 o1 e s' o' h
        exact ⟨q1.trans p1, fun b x hx => (q2 b x hx).trans (p2 b x hx)⟩

theorem typeOf_mem {tab : ClassTab} {h : BitVec 32} {t : RType} (he : typeOf tab h = some t) : t ∈ tab.types := by
  unfold typeOf at he
  cases hl : lookup tab h with
  | none => rw [hl] at he; cases he
  | some i =>
    rw [hl] at he
    simp only [Option.bind_some, typeAt] at he
    exact List.mem_of_getElem? he

theorem fields_safe (tab : ClassTab) (li : RType → List Byte → Obj → RRes) (S : Bool → Nat → Prop)
    (hl : ∀ t ∈ tab.types, Safe (li t) S) : ∀ k err, Safe (loadFields tab li k err) S := by
  intro k
  induction k with
  | zero => intro err s o e s' o' h; cases h; exact ⟨List.suffix_refl _, fun b x _ => Same.refl b x o⟩
  | succ k ih =>
    intro err s o e s' o' h
    simp only [loadFields] at h
    split at h
    · cases h
    · rename_i hb s1 h1
      have p1 := (takeN_spec h1).1
      split at h
      · cases h
      · rename_i size s2 h2
        have p2 := (buRead_suffix h2).trans p1
        split at h
        · split at h
          · cases h
          · rename_i s3 h3
            obtain ⟨q1, q2⟩ := ih _ _ _ _ _ _ h
            exact ⟨q1.trans ((skip_suffix h3).trans p2), q2⟩
        · rename_i t ht
          have hs := hl t (typeOf_mem ht)
          split at h
          · cases h
          · rename_i s3 o3 h3
            obtain ⟨p3, p4⟩ := hs _ _ _ _ _ h3
            obtain ⟨q1, q2⟩ := ih _ _ _ _ _ _ h
            exact ⟨q1.trans (p3.trans p2), fun b x hx => (q2 b x hx).trans (p4 b x hx)⟩
          · rename_i e3 s3 o3 _ h3
            obtain ⟨p3, p4⟩ := hs _ _ _ _ _ h3
            split at h
            · cases h
            · rename_i s4 h4
              obtain ⟨q1, q2⟩ := ih _ _ _ _ _ _ h
              exact ⟨q1.trans ((skip_suffix h4).trans p2), fun b x hx => (q2 b x hx).trans (p4 b x hx)⟩

theorem class_safe (li : RType → Nat → List Byte → Obj → RRes) (inst : Inst) (S : Bool → Nat → Prop)
    (hl : ∀ t ∈ inst.cls.tab.types, Safe (li t (inst.base + t.offset.toNat)) S) : Safe (loadClass li inst) S := by
  intro s o e s' o' h
  simp only [loadClass] at h
  split at h
  · cases h
  · rename_i chunk s1 h1
    have p1 := buRead_suffix h1
    split at h
    · cases h
    · rename_i num s2 h2
      have p2 := (buRead_suffix h2).trans p1
      split at h
      · cases hk : skip chunk s1 with
        | none => rw [hk] at h; cases h
        | some s3 =>
          rw [hk] at h
          cases h
          exact ⟨(skip_suffix hk).trans p1, fun b x _ => Same.refl b x o⟩
      · obtain ⟨q1, q2⟩ := fields_safe inst.cls.tab _ S hl _ _ _ _ _ _ _ h
        exact ⟨q1.trans p2, q2⟩

theorem Safe.mono {l : List Byte → Obj → RRes} {S T : Bool → Nat → Prop} (h : Safe l S) (hst : ∀ b x, S b x → T b x) : Safe l T := by
  intro s o e s' o' he
  obtain ⟨p, q⟩ := h s o e s' o' he
  exact ⟨p, fun b x hx => q b x (fun hs => hx (hst b x hs))⟩

theorem item_safe (reg : Registry) : ∀ (f : Nat) (inst : Inst) (r : RType) (a : Nat),
    Safe (loadItem reg f inst r a) (Covers reg f inst r a) := by
  intro f
  induction f with
  | zero => intro inst r a s o e s' o' h; cases h
  | succ f ih =>
    intro inst r a
    have hlist : Safe (loadElems (fun i => loadItem reg f inst (elem r i) (a + r.subSize.toNat * i)) r.numItems.toNat 0)
        (fun b x => ∃ i, i < r.numItems.toNat ∧ Covers reg f inst (elem r i) (a + r.subSize.toNat * i) b x) :=
      elems_safe _ _ _ _ (fun j _ h2 => (ih inst (elem r j) _).mono (fun b x hx => ⟨j, by omega, hx⟩))
    have hraw : Safe (fun s o => match takeN r.subSize.toNat s with | none => none | some (bs, s) => some (0, s, o.write a bs))
        (fun b x => b = false ∧ a ≤ x ∧ x < a + r.subSize.toNat) := by
      intro s o e s' o' h
      simp only at h
      split at h
      · cases h
      · rename_i bs s1 h1
        simp only [Option.some.injEq, Prod.mk.injEq] at h
        obtain ⟨_, rfl, rfl⟩ := h
        exact ⟨(takeN_spec h1).1, write_frame o a _ bs (takeN_spec h1).2⟩
    have hvar : ∀ rdr : List Byte → Option (BitVec 64 × List Byte), (∀ s w s', rdr s = some (w, s') → s' <:+ s) →
        Safe (fun s o => match rdr s with | none => none | some (v, s) => if r.subSize.toNat ≤ 8 then some (0, s, o.write a (toLE r.subSize.toNat v.toNat)) else none)
        (fun b x => b = false ∧ a ≤ x ∧ x < a + r.subSize.toNat) := by
      intro rdr hr s o e s' o' h
      simp only at h
      split at h
      · cases h
      · rename_i v s1 h1
        split at h
        · simp only [Option.some.injEq, Prod.mk.injEq] at h
          obtain ⟨_, rfl, rfl⟩ := h
          exact ⟨hr _ _ _ h1, write_frame o a _ _ (toLE_length _ _)⟩
        · cases h
    have hbi := hvar biRead (fun _ _ _ h => biRead_suffix h)
    have hbu := hvar buRead (fun _ _ _ h => buRead_suffix h)
    intro s o e s' o' h
    cases ht : r.type <;> simp only [loadItem, ht] at h <;> (unfold Covers; try simp only [ht])
    case Integer | Enum =>
      split at h
      · exact hbi s o e s' o' h
      · exact hraw s o e s' o' h
    case UnsignedInteger | EnumFlags | BitFieldClass =>
      split at h
      · exact hbu s o e s' o' h
      · exact hraw s o e s' o' h
    case Bool | FloatingPoint => exact hraw s o e s' o' h
    case Array | ArrayClass | Vector => exact hlist s o e s' o' h
    case String =>
      split at h
      · cases h
      · rename_i c s1 h1
        split at h
        · cases h
        · rename_i bs s2 h2
          simp only [Option.some.injEq, Prod.mk.injEq] at h
          obtain ⟨_, rfl, rfl⟩ := h
          refine ⟨(takeN_spec h2).1.trans (takeN_spec h1).1, fun b x hx => ?_⟩
          unfold Same
          cases b with
          | false => rfl
          | true =>
            simp only [if_true, Obj.writeStr]
            rw [if_neg (fun hxa => hx ⟨rfl, hxa⟩)]
    case Class =>
      split at h
      · cases h
      · rename_i sub hsub
        exact class_safe _ sub _ (fun t ht => (ih sub t _).mono (fun b x hx => ⟨sub, hsub, t, ht, hx⟩)) s o e s' o' h
    all_goals
      simp only [Option.some.injEq, Prod.mk.injEq] at h
      obtain ⟨_, rfl, rfl⟩ := h
      exact ⟨List.suffix_refl _, fun b x _ => Same.refl b x o⟩

/-- **C146.** For every stream, whatever `Load` answers: the bytes left are the end of the stream, and nothing changed outside
what the reflected members cover. -/
theorem load_frame (f : Nat) (reg : Registry) (c : ClassDef) : Safe (load f reg c) (CoversClass reg f ⟨c, 0⟩) := by
  intro s o e s' o' h
  unfold load at h
  split at h
  · cases h
  · rename_i hb s1 h1
    split at h
    · cases h; exact ⟨List.suffix_refl _, fun b x _ => Same.refl b x o⟩
    · obtain ⟨p, q⟩ := class_safe _ ⟨c, 0⟩ (CoversClass reg f ⟨c, 0⟩)
        (fun t ht => (item_safe reg f ⟨c, 0⟩ t _).mono (fun b x hx => ⟨t, ht, hx⟩)) s1 o e s' o' h
      exact ⟨p.trans (takeN_spec h1).1, q⟩

theorem subClass_of {reg : Registry} {inst : Inst} {i k : Nat} {r : RType} {sub : Inst} (hr : inst.cls.tab.types[i]? = some r)
    (h : subClass reg inst i k = some sub) :
    (k = 0 ∨ k < r.numItems.toNat) ∧ reg r.typeHash = some sub.cls ∧
      sub.base = inst.base + r.offset.toNat + (if r.type = .Array ∨ r.type = .Vector ∨ r.type = .ArrayClass then k * r.subSize.toNat else 0) := by
  unfold subClass at h
  rw [hr] at h
  cases hreg : reg r.typeHash with
  | none =>
    simp only [hreg, Option.map_none, ite_self] at h
    cases h
  | some c =>
    simp only [hreg, Option.map_some] at h
    split at h
    · cases h
    · rename_i hc
      refine ⟨by omega, ?_⟩
      have key : ∀ (q : Prop) [Decidable q] (x : Inst), (if q then some x else none) = some sub → x = sub := by
        intro q _ x hx
        split at hx
        · exact Option.some.inj hx
        · cases hx
      have := key _ _ h
      rw [← this]
      refine ⟨rfl, ?_⟩
      cases r.type <;> simp

theorem covers_plain {reg : Registry} {f : Nat} {inst : Inst} {r : RType} {a : Nat} {b : Bool} {x : Nat} (hp : isPlain r.type = true)
    (h : Covers reg f inst r a b x) : a ≤ x ∧ x < a + r.subSize.toNat := by
  cases f with
  | zero => cases h
  | succ f =>
    unfold Covers at h
    cases ht : r.type <;> rw [ht] at h hp <;> first | exact h.2 | exact absurd hp (by decide)

theorem slot {a n k i x m : Nat} (hi : i < k) (h1 : a + n * i ≤ x) (h2 : x < a + n * i + n) (h : a + k * n ≤ m) : a ≤ x ∧ x < m := by
  have : n * i + n ≤ n * k := by
    have := Nat.mul_le_mul_left n hi
    simpa [Nat.mul_succ] using this
  have := Nat.mul_comm n k
  omega

theorem covers_inside (size : ClassDef → Nat) (reg : Registry) (hreg : ∀ h c, reg h = some c → LaidOut size reg c) :
    ∀ (f : Nat) (inst : Inst), LaidOut size reg inst.cls → ∀ b x, CoversClass reg f inst b x → inst.base ≤ x ∧ x < inst.base + size inst.cls := by
  intro f
  induction f using Nat.strongRecOn with
  | _ f ih =>
  intro inst hc b x ⟨r, hr, h⟩
  obtain ⟨i, hi⟩ := List.mem_iff_getElem?.1 hr
  obtain ⟨hid, he⟩ := hc i r hi
  cases f with
  | zero => cases h
  | succ f =>
  -- a class reached through the member
  have into : ∀ k, k < 2 ^ 16 → ∀ r' : RType, r'.type = .Class → r'.ID = r.ID → r'.numItems = BitVec.ofNat 16 k → ∀ g, g ≤ f + 1 → ∀ a, Covers reg g inst r' a b x →
      (k = 0 ∨ k < r.numItems.toNat) ∧ ∃ c, reg r.typeHash = some c ∧
        inst.base + r.offset.toNat + (if r.type = .Array ∨ r.type = .Vector ∨ r.type = .ArrayClass then k * r.subSize.toNat else 0) ≤ x ∧
        x < inst.base + r.offset.toNat + (if r.type = .Array ∨ r.type = .Vector ∨ r.type = .ArrayClass then k * r.subSize.toNat else 0) + size c := by
    intro k hk r' ht hid' hn g hg a hcov
    cases g with
    | zero => cases hcov
    | succ g =>
      unfold Covers at hcov
      rw [ht] at hcov
      obtain ⟨sub, hsub, t, htm, hcv⟩ := hcov
      rw [hid', hid, hn, BitVec.toNat_ofNat, Nat.mod_eq_of_lt hk] at hsub
      obtain ⟨q1, q2, q3⟩ := subClass_of hi hsub
      have := ih g (by omega) sub (hreg _ _ q2) b x ⟨t, htm, hcv⟩
      rw [q3] at this
      exact ⟨q1, sub.cls, q2, this⟩
  have list : (r.type = .Array ∨ r.type = .ArrayClass ∨ r.type = .Vector) →
      (∃ j, j < r.numItems.toNat ∧ Covers reg f inst (elem r j) (inst.base + r.offset.toNat + r.subSize.toNat * j) b x) →
      (r.offset.toNat + r.numItems.toNat * r.subSize.toNat ≤ size inst.cls ∧
    match r.subType with
    | .String => 0 < r.subSize.toNat
    | .CString => True
    | .Class => ∀ c, reg r.typeHash = some c → size c ≤ r.subSize.toNat
    | .Vector => isPlain (decType r.typeHash) = true ∧ (decNum r.typeHash).toNat * (decSize r.typeHash).toNat ≤ r.subSize.toNat
    | t => isPlain t = true) → inst.base ≤ x ∧ x < inst.base + size inst.cls := by
    intro hty ⟨j, hj, hcov⟩ ⟨he1, he2⟩
    have fin : inst.base + r.offset.toNat + r.subSize.toNat * j ≤ x → x < inst.base + r.offset.toNat + r.subSize.toNat * j + r.subSize.toNat →
        inst.base ≤ x ∧ x < inst.base + size inst.cls := by
      intro h1 h2
      have := slot (m := inst.base + size inst.cls) hj h1 h2 (by omega)
      omega
    have hpl : isPlain r.subType = true → inst.base ≤ x ∧ x < inst.base + size inst.cls := by
      intro hp
      have hv : r.subType ≠ .Vector := by intro h; rw [h] at hp; cases hp
      unfold elem at hcov
      rw [if_neg hv] at hcov
      have := covers_plain (by exact hp) hcov
      exact fin this.1 this.2
    cases hst : r.subType <;> rw [hst] at he2
    case String =>
      unfold elem at hcov
      rw [hst, if_neg (by decide)] at hcov
      cases f with
      | zero => cases hcov
      | succ g =>
        unfold Covers at hcov
        simp only at hcov he2
        exact fin (by omega) (by omega)
    case CString =>
      unfold elem at hcov
      rw [hst, if_neg (by decide)] at hcov
      cases f with
      | zero => cases hcov
      | succ g => unfold Covers at hcov; cases hcov
    case Class =>
      unfold elem at hcov
      rw [hst, if_neg (by decide)] at hcov
      have := into j (by have := r.numItems.isLt; omega) { r with type := .Class, subType := r.type, numItems := BitVec.ofNat 16 j } rfl rfl rfl f (by omega) _ hcov
      obtain ⟨_, c, hc', h1, h2⟩ := this
      have hsz := he2 c hc'
      rw [if_pos (by rcases hty with h | h | h <;> simp [h])] at h1 h2
      rw [Nat.mul_comm] at h1 h2
      exact fin h1 (by omega)
    case Vector =>
      unfold elem at hcov
      rw [hst, if_pos rfl] at hcov
      simp only at he2
      cases f with
      | zero => cases hcov
      | succ g =>
        unfold Covers at hcov
        simp only at hcov
        obtain ⟨k, hk, hcv⟩ := hcov
        unfold elem at hcv
        have hv : decType r.typeHash ≠ .Vector := by intro h; rw [h] at he2; cases he2.1
        simp only [if_neg hv] at hcv
        have := covers_plain (by exact he2.1) hcv
        simp only at this
        have := slot (m := inst.base + r.offset.toNat + r.subSize.toNat * j + r.subSize.toNat) hk this.1 this.2 (by omega)
        exact fin this.1 this.2
    all_goals first | (exact hpl (by rw [hst]; rfl)) | cases he2
  unfold Ends at he
  cases ht : r.type <;> rw [ht] at he
  case String =>
    unfold Covers at h
    rw [ht] at h
    simp only at he h
    omega
  case Class =>
    have hlt := r.numItems.isLt
    obtain ⟨_, c, hc', h1, h2⟩ := into r.numItems.toNat hlt r ht rfl (by simp) (f + 1) (by omega) _ h
    have := he c hc'
    rw [if_neg (by simp [ht])] at h1 h2
    omega
  case Array | ArrayClass | Vector =>
    unfold Covers at h
    rw [ht] at h
    exact list (by simp [ht]) h he
  all_goals
    first
    | (have := covers_plain (by rw [ht]; rfl) h
       simp only at he
       omega)
    | (unfold Covers at h; rw [ht] at h; cases h)

/-- **C146 (memory).** With members that end inside their classes, `Load` of any stream at all writes only inside the object. -/
theorem load_in_object (size : ClassDef → Nat) (f : Nat) (reg : Registry) (hreg : ∀ h c, reg h = some c → LaidOut size reg c)
    (c : ClassDef) (hc : LaidOut size reg c) (s : List Byte) (o : Obj) (e : Nat) (s' : List Byte) (o' : Obj)
    (h : load f reg c s o = some (e, s', o')) (x : Nat) (hx : size c ≤ x) : o'.mem x = o.mem x ∧ o'.strs x = o.strs x := by
  have hn : ∀ b, ¬ CoversClass reg f ⟨c, 0⟩ b x := by
    intro b hcov
    have := covers_inside size reg hreg f ⟨c, 0⟩ hc b x hcov
    simp only at this
    omega
  have q := (load_frame f reg c s o e s' o' h).2
  have h0 := q false x (hn false)
  have h1 := q true x (hn true)
  simp only [Same, Bool.false_eq_true, if_false, if_true] at h0 h1
  exact ⟨h0, h1⟩

/-! ## The bound on the nesting does not matter -/

theorem elems_le {l l' : Nat → List Byte → Obj → RRes} (h : ∀ i s o r, l i s o = some r → l' i s o = some r) : ∀ k i s o r,
    loadElems l k i s o = some r → loadElems l' k i s o = some r := by
  intro k
  induction k with
  | zero => intro i s o r hr; exact hr
  | succ k ih =>
    intro i s o r hr
    simp only [loadElems] at hr ⊢
    cases hl : l i s o with
    | none => rw [hl] at hr; cases hr
    | some q =>
      rw [hl] at hr
      rw [h _ _ _ _ hl]
      simp only at hr ⊢
      split
      · rename_i he; rw [if_pos he] at hr; exact hr
      · rename_i he; rw [if_neg he] at hr; exact ih _ _ _ _ hr

theorem fields_le (tab : ClassTab) {l l' : RType → List Byte → Obj → RRes} (h : ∀ t s o r, l t s o = some r → l' t s o = some r) : ∀ k e s o r,
    loadFields tab l k e s o = some r → loadFields tab l' k e s o = some r := by
  intro k
  induction k with
  | zero => intro e s o r hr; exact hr
  | succ k ih =>
    intro e s o r hr
    simp only [loadFields] at hr ⊢
    cases h1 : takeN 4 s with
    | none => rw [h1] at hr; cases hr
    | some p =>
      rw [h1] at hr
      simp only at hr ⊢
      cases h2 : buRead p.2 with
      | none => rw [h2] at hr; cases hr
      | some q =>
        rw [h2] at hr
        simp only at hr ⊢
        cases h3 : typeOf tab (BitVec.ofNat 32 (leNat p.1)) with
        | none =>
          rw [h3] at hr
          simp only at hr ⊢
          cases h4 : skip q.1 q.2 with
          | none => rw [h4] at hr; cases hr
          | some s4 => rw [h4] at hr; exact ih _ _ _ _ hr
        | some t =>
          rw [h3] at hr
          simp only at hr ⊢
          cases h4 : l t q.2 o with
          | none => rw [h4] at hr; cases hr
          | some v =>
            rw [h4] at hr
            rw [h _ _ _ _ h4]
            obtain ⟨e4, s4, o4⟩ := v
            cases e4 with
            | zero => exact ih _ _ _ _ hr
            | succ e4 =>
              simp only at hr ⊢
              cases h5 : skip q.1 q.2 with
              | none => rw [h5] at hr; cases hr
              | some s5 => rw [h5] at hr; exact ih _ _ _ _ hr

theorem class_le (inst : Inst) {l l' : RType → Nat → List Byte → Obj → RRes} (h : ∀ t a s o r, l t a s o = some r → l' t a s o = some r) (s o r)
    (hr : loadClass l inst s o = some r) : loadClass l' inst s o = some r := by
  simp only [loadClass] at hr ⊢
  cases h1 : buRead s with
  | none => rw [h1] at hr; cases hr
  | some p =>
    rw [h1] at hr
    simp only at hr ⊢
    cases h2 : buRead p.2 with
    | none => rw [h2] at hr; cases hr
    | some q =>
      rw [h2] at hr
      simp only at hr ⊢
      split
      · rename_i he; rw [if_pos he] at hr; exact hr
      · rename_i he; rw [if_neg he] at hr; exact fields_le _ (fun t s o r => h t _ s o r) _ _ _ _ _ hr

theorem item_le (reg : Registry) : ∀ f inst t a s o r, loadItem reg f inst t a s o = some r → loadItem reg (f + 1) inst t a s o = some r := by
  intro f
  induction f with
  | zero => intro inst t a s o r h; cases h
  | succ f ih =>
    intro inst t a s o r h
    have hl := elems_le (l := fun i => loadItem reg f inst (elem t i) (a + t.subSize.toNat * i))
      (l' := fun i => loadItem reg (f + 1) inst (elem t i) (a + t.subSize.toNat * i)) (fun i s o r => ih inst (elem t i) _ s o r) t.numItems.toNat 0 s o r
    cases ht : t.type <;> rw [loadItem] at h ⊢ <;> simp only [ht] at h ⊢
    case Array | ArrayClass | Vector => exact hl h
    case Class =>
      cases hs : subClass reg inst t.ID.toNat t.numItems.toNat with
      | none => rw [hs] at h; cases h
      | some sub => rw [hs] at h; exact class_le sub (fun t a s o r => ih sub t a s o r) s o r h
    all_goals exact h

/-- **C146 (nesting).** The bound on the nesting of classes, the only thing in the model the program does not have, changes no
answer: two bounds under which `Load` answers give the same answer. -/
theorem load_bound (f g : Nat) (reg : Registry) (c : ClassDef) (s : List Byte) (o : Obj) (r r' : Nat × List Byte × Obj)
    (h : load f reg c s o = some r) (h' : load g reg c s o = some r') : r = r' := by
  have up : ∀ (k f : Nat) r, load f reg c s o = some r → load (f + k) reg c s o = some r := by
    intro k
    induction k with
    | zero => intro f r h; exact h
    | succ k ih =>
      intro f r h
      have := ih f r h
      show load (f + k + 1) reg c s o = some r
      unfold load at this ⊢
      cases h1 : takeN 4 s with
      | none => rw [h1] at this; cases this
      | some p =>
        rw [h1] at this
        simp only at this ⊢
        split
        · rename_i he; rw [if_pos he] at this; exact this
        · rename_i he; rw [if_neg he] at this; exact class_le _ (fun t a s o r => item_le reg _ _ t a s o r) _ _ _ this
  have a := up g f r h
  have b := up f g r' h'
  rw [Nat.add_comm] at b
  rw [a] at b
  exact Option.some.inj b

/-! ## Classes declared in C++ -/

/-- The member types a reflected class can have, with classes as registered: vectors are of numbers, and a class found under the
hash of a member type is no larger than the member. -/
def Declared (size : ClassDef → Nat) (reg : Registry) : CTy → Prop
  | .cls n h => ∀ c, reg h = some c → size c ≤ n
  | .arr (.vec c _) _ | .vec c _ => c.ty = .Integer ∨ c.ty = .UnsignedInteger ∨ c.ty = .FloatingPoint
  | .arr (.cls n h) _ => ∀ c, reg h = some c → size c ≤ n
  | _ => True

theorem ends_built (size : ClassDef → Nat) (reg : Registry) (n i : Nat) (m : Member) (hf : m.ty.Fits) (ho : m.offset < 65536)
    (hd : Declared size reg m.ty) (hn : m.offset + m.ty.sizeof ≤ n) : Ends size reg (buildType i m) n := by
  obtain ⟨name, t, off⟩ := m
  simp only at hf ho hd hn
  have hss := CTy.subSize_toNat hf
  have hoff : (buildType i ⟨name, t, off⟩).offset.toNat = off := by simp [buildType]; omega
  have plain : ∀ c : CTy, (c.ty = .Integer ∨ c.ty = .UnsignedInteger ∨ c.ty = .FloatingPoint) → isPlain c.ty = true := by
    intro c h; rcases h with h | h | h <;> rw [h] <;> rfl
  unfold Ends
  rw [hoff]
  cases t with
  | arr e k =>
    obtain ⟨h1, h2, h3⟩ := hf
    have hk : (buildType i ⟨name, .arr e k, off⟩).numItems.toNat = k := by simp [buildType, CTy.numItems]; omega
    have hz : (buildType i ⟨name, .arr e k, off⟩).subSize.toNat = e.sizeof := hss
    rw [hk, hz]
    refine ⟨hn, ?_⟩
    show match e.ty with | .String => _ | .CString => _ | .Class => _ | .Vector => _ | t => _
    cases e with
    | arr e' k' => rcases h3 with h3 | ⟨c, d, h3, _⟩ <;> cases h3
    | vec c d =>
      rcases h3 with h3 | ⟨c', d', h3, h4, h5, h6⟩
      · cases h3
      · cases h3
        obtain ⟨q1, q2, q3⟩ := vectorHash_dec c.ty (BitVec.ofNat 8 c.sizeof) (BitVec.ofNat 16 d)
        show isPlain (decType (vectorHash c.ty (BitVec.ofNat 8 c.sizeof) (BitVec.ofNat 16 d))) = true ∧
          (decNum (vectorHash c.ty (BitVec.ofNat 8 c.sizeof) (BitVec.ofNat 16 d))).toNat *
          (decSize (vectorHash c.ty (BitVec.ofNat 8 c.sizeof) (BitVec.ofNat 16 d))).toNat ≤ d * c.sizeof
        rw [q1, q2, q3]
        refine ⟨plain c hd, ?_⟩
        rw [BitVec.toNat_ofNat, BitVec.toNat_ofNat, Nat.mod_eq_of_lt (by omega), Nat.mod_eq_of_lt (by omega)]
        exact Nat.le_refl _
    | str => show 0 < (32 : Nat); decide
    | cstr => trivial
    | cls b h => exact hd
    | _ => rfl
  | vec c d =>
    obtain ⟨h1, h2, h3⟩ := hf
    have hk : (buildType i ⟨name, .vec c d, off⟩).numItems.toNat = d := by simp [buildType, CTy.numItems]; omega
    have hz : (buildType i ⟨name, .vec c d, off⟩).subSize.toNat = c.sizeof := hss
    rw [hk, hz]
    refine ⟨hn, ?_⟩
    show match c.ty with | .String => _ | .CString => _ | .Class => _ | .Vector => _ | t => _
    have hd : c.ty = .Integer ∨ c.ty = .UnsignedInteger ∨ c.ty = .FloatingPoint := hd
    rcases hd with h | h | h <;> rw [h] <;> rfl
  | cls b h =>
    intro c hc
    have := hd c hc
    have : off + b ≤ n := hn
    omega
  | str => show off < n; have : off + 32 ≤ n := hn; omega
  | cstr =>
    show off + 0 ≤ n
    have : off + 8 ≤ n := hn
    omega
  | bool => exact hn
  | _ =>
    rw [← hoff] at hn ⊢
    exact hss.symm ▸ hn

/-- **C146 (declared classes).** The layout condition is what the compiler guarantees: a class whose members lie inside it, registered
with `REFLECTOR_CREATE` within the limits of C65, is laid out. -/
theorem registered_laid (size : ClassDef → Nat) (reg : Registry) (ms : List Member) (h : Registrable ms) (c : ClassDef)
    (htab : buildTable ms = some c.tab.types) (hd : ∀ m ∈ ms, Declared size reg m.ty) (hn : ∀ m ∈ ms, m.offset + m.ty.sizeof ≤ size c) :
    LaidOut size reg c := by
  intro i r hr
  rw [buildTable_eq ms h.count] at htab
  rw [← Option.some.inj htab] at hr
  simp only [List.getElem?_mapIdx, Option.map_eq_some_iff] at hr
  obtain ⟨m, hm, rfl⟩ := hr
  have hmem := List.mem_of_getElem? hm
  have hlt : i < ms.length := (List.getElem?_eq_some_iff.mp hm).1
  have := h.count.2.1
  refine ⟨by simp [buildType]; omega, ends_built size reg _ i m (h.fits m hmem).1 (h.fits m hmem).2 (hd m hmem) (hn m hmem)⟩

/-- A class of an `int`, three vectors of four floats and two strings, 128 bytes long. -/
example : Registrable [⟨1, .int 4, 0⟩, ⟨2, .arr (.vec (.flt 4) 4) 3, 4⟩, ⟨3, .arr .str 2, 56⟩] ∧
    (∀ m ∈ [(⟨1, .int 4, 0⟩ : Member), ⟨2, .arr (.vec (.flt 4) 4) 3, 4⟩, ⟨3, .arr .str 2, 56⟩], Declared (fun _ => 128) (fun _ => none) m.ty ∧ m.offset + m.ty.sizeof ≤ 128) := by
  refine ⟨⟨by unfold GoodCount; decide, ?_⟩, ?_⟩
  · intro m hm
    simp only [List.mem_cons, List.not_mem_nil, or_false] at hm
    rcases hm with rfl | rfl | rfl
    · exact ⟨show 4 < 256 by decide, by decide⟩
    · exact ⟨⟨by decide, by decide, .inr ⟨_, _, rfl, trivial, by decide, by decide⟩⟩, by decide⟩
    · exact ⟨⟨by decide, by decide, .inl trivial⟩, by decide⟩
  · intro m hm
    simp only [List.mem_cons, List.not_mem_nil, or_false] at hm
    rcases hm with rfl | rfl | rfl
    · exact ⟨trivial, by decide⟩
    · exact ⟨.inr (.inr rfl), by decide⟩
    · exact ⟨trivial, by decide⟩

/-! The hypotheses are met by a class with an integer, a string, an array and a nested class, and a stream that names the
same member twice and a member the class does not have: `Load` answers 0 and the object is changed. -/
def exSize (c : ClassDef) : Nat := if c.hash = 0xb then 8 else 56

theorem exLaid : (∀ h c, exReg h = some c → LaidOut exSize exReg c) ∧ LaidOut exSize exReg exA := by
  have hA : LaidOut exSize exReg exA := by
    intro i r h
    have hi : i < exA.tab.types.length := (List.getElem?_eq_some_iff.1 h).1
    match i, hi with
    | 0, _ => cases h; exact ⟨rfl, show 0 + 8 ≤ 56 by decide⟩
    | 1, _ => cases h; exact ⟨rfl, show 8 < 56 by decide⟩
    | 2, _ => cases h; exact ⟨rfl, show 40 + 3 * 2 ≤ 56 by decide, rfl⟩
    | 3, _ => cases h; exact ⟨rfl, fun c hc => by cases hc; decide⟩
  have hB : LaidOut exSize exReg exB := by
    intro i r h
    have hi : i < exB.tab.types.length := (List.getElem?_eq_some_iff.1 h).1
    match i, hi with
    | 0, _ => cases h; exact ⟨rfl, show 0 + 4 ≤ 8 by decide⟩
    | 1, _ => cases h; exact ⟨rfl, show 4 + 2 ≤ 8 by decide⟩
  refine ⟨fun h c hr => ?_, hA⟩
  unfold exReg at hr
  split at hr
  · cases hr; exact hA
  · split at hr
    · cases hr; exact hB
    · cases hr

example : (load 3 exReg exA ([0xa, 0, 0, 0, 0x20, 4] ++ [1, 0, 0, 0, 1, 0x05] ++ [1, 0, 0, 0, 2, 0x83, 0x01] ++ [99, 0, 0, 0, 1, 7] ++
    [2, 0, 0, 0, 5, 1, 0, 0, 0, 0x41] ++ [0xee]) exO0).any (fun r => r.1 == 0 && r.2.1 == [0xee] && r.2.2.mem 0 == 0x83 && r.2.2.mem 1 == 0 &&
    r.2.2.strs 8 == [0x41]) = true := by decide +kernel

/-- The layout is needed: a member that starts inside the class but ends outside it is written outside it. -/
theorem load_layout_needed : ∃ (c : ClassDef) (s : List Byte) (o' : Obj), load 2 exReg c s exO0 = some (0, [], o') ∧
    (∀ r ∈ c.tab.types, r.offset.toNat < 8) ∧ o'.mem 9 ≠ exO0.mem 9 := by
  refine ⟨⟨7, ⟨[⟨.FloatingPoint, .None, 8, 0, 0, 4, 1, 0⟩], none⟩⟩, [7, 0, 0, 0, 14, 1, 1, 0, 0, 0, 8, 1, 2, 3, 4, 5, 6, 7, 8], _, rfl, by decide, by decide +kernel⟩

end PreCore.ReflBin
