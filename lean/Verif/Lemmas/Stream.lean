import Verif.Model.Stream
import Verif.Lemmas.Mem
import Verif.Props.Endian
/-! Lemmas about the stream model. -/
namespace PreCore.Stream

/-- The stream is good and the next bytes are `bs`. -/
def Has (s : Stream) (bs : List Byte) : Prop :=
  s.fail = false ∧ s.eof = false ∧ ∃ rest, s.data.drop s.pos = bs ++ rest

def adv (s : Stream) (n : Nat) : Stream := { s with pos := s.pos + n }

theorem Has.left {s : Stream} {a b : List Byte} (h : Has s (a ++ b)) : Has s a := by
  obtain ⟨h1, h2, r, h3⟩ := h
  exact ⟨h1, h2, b ++ r, by rw [h3, List.append_assoc]⟩

theorem Has.right {s : Stream} {a b : List Byte} (h : Has s (a ++ b)) : Has (adv s a.length) b := by
  obtain ⟨h1, h2, r, h3⟩ := h
  refine ⟨h1, h2, r, ?_⟩
  show s.data.drop (s.pos + a.length) = b ++ r
  rw [← List.drop_drop, h3, List.append_assoc]
  simp

theorem Has.read {s : Stream} {bs : List Byte} (h : Has s bs) : s.read bs.length = (some bs, adv s bs.length) := by
  obtain ⟨h1, h2, r, h3⟩ := h
  unfold Stream.read
  rw [if_neg (by simp [h1, h2])]
  by_cases hb : bs = []
  · subst hb; simp [adv]
  · have hl : bs.length ≠ 0 := by simpa using hb
    rw [if_neg hl, if_pos, h3]
    · simp [adv]
    · have := congrArg List.length h3
      simp at this; omega

theorem adv_fail (s : Stream) (n : Nat) : (adv s n).fail = s.fail := by cases s; rfl
theorem adv_data (s : Stream) (n : Nat) : (adv s n).data = s.data := by cases s; rfl

theorem adv_adv (s : Stream) (a b : Nat) : adv (adv s a) b = adv s (a + b) := by simp [adv, Nat.add_assoc]
theorem adv_zero (s : Stream) : adv s 0 = s := rfl

theorem overwrite_length (d : List Byte) (p : Nat) (bs : List Byte) :
    (overwrite d p bs).length = max d.length (p + bs.length) := by
  simp [overwrite]; omega

theorem overwrite_pre (d : List Byte) (p : Nat) (bs : List Byte) :
    (overwrite d p bs).take p = d.take p ++ List.replicate (p - d.length) 0#8 := by
  unfold overwrite
  rw [List.append_assoc, List.append_assoc, ← List.append_assoc, List.take_append_of_le_length (by simp; omega),
    List.take_of_length_le (by simp; omega)]

theorem overwrite_drop (d : List Byte) (p : Nat) (bs : List Byte) :
    (overwrite d p bs).drop p = bs ++ d.drop (p + bs.length) := by
  unfold overwrite
  rw [List.append_assoc, List.drop_append]
  have : (List.take p d ++ List.replicate (p - d.length) 0#8).length = p := by simp; omega
  rw [List.drop_of_length_le (by omega), this]
  simp

theorem overwrite_append (d : List Byte) (p : Nat) (a b : List Byte) :
    overwrite (overwrite d p a) (p + a.length) b = overwrite d p (a ++ b) := by
  have hl := overwrite_length d p a
  have h1 : (overwrite d p a).take (p + a.length) = d.take p ++ List.replicate (p - d.length) 0#8 ++ a := by
    rw [List.take_add, overwrite_pre, overwrite_drop]; simp
  have h2 : (overwrite d p a).drop (p + a.length + b.length) = d.drop (p + (a.length + b.length)) := by
    rw [Nat.add_assoc, ← List.drop_drop, overwrite_drop, ← List.drop_drop]
    simp
    congr 1; omega
  rw [overwrite, h1, h2, hl]
  rw [show p + a.length - max d.length (p + a.length) = 0 by omega]
  simp [overwrite, List.append_assoc]

theorem write_write (s : Stream) (a b : List Byte) : (s.write a).write b = s.write (a ++ b) := by
  unfold Stream.write
  by_cases hf : s.fail = true
  · simp [hf]
  · have hf' : s.fail = false := by simpa using hf
    by_cases ha : a = []
    · subst ha; simp [hf']
    · by_cases hb : b = []
      · subst hb; simp [hf', ha]
      · simp [hf', ha, hb, overwrite_append, Nat.add_assoc]

theorem write_fail (s : Stream) (a : List Byte) : (s.write a).fail = s.fail ∧ (s.write a).eof = s.eof := by
  unfold Stream.write; split <;> simp

theorem write_pos (s : Stream) (a : List Byte) (hf : s.fail = false) : (s.write a).pos = s.pos + a.length := by
  unfold Stream.write
  by_cases ha : a = []
  · simp [ha]
  · simp [hf, ha]

theorem write_has (s : Stream) (a : List Byte) (hf : s.fail = false) :
    Has ⟨(s.write a).data, s.pos, false, false⟩ a := by
  refine ⟨rfl, rfl, ?_⟩
  unfold Stream.write
  by_cases ha : a = []
  · subst ha; exact ⟨_, rfl⟩
  · simp only [hf, ha, Bool.false_eq_true, or_self, if_false]
    exact ⟨_, overwrite_drop _ _ _⟩

theorem Ty.swap_swap (t : Ty) (v : BitVec (8 * t.bytes)) : t.swap (t.swap v) = v := by
  cases t
  · rfl
  · exact Endian.fbswap_involutive .w16 v
  · exact Endian.fbswap_involutive .w32 v
  · exact Endian.fbswap_involutive .w64 v

/-- The stored form of a scalar. -/
def enc (swap : Bool) (t : Ty) (v : BitVec (8 * t.bytes)) : BitVec (8 * t.bytes) := if swap then t.swap v else v

theorem enc_enc (swap : Bool) (t : Ty) (v : BitVec (8 * t.bytes)) : enc swap t (enc swap t v) = v := by
  cases swap
  · rfl
  · exact Ty.swap_swap t v

theorem scalarBytes_length (swap : Bool) (t : Ty) (v) : (scalarBytes swap t v).length = t.bytes := toLE_length _ _

theorem ofNat_leNat_toLE (n : Nat) (v : BitVec (8 * n)) : BitVec.ofNat (8 * n) (leNat (toLE n v.toNat)) = v := by
  rw [leNat_toLE]
  apply BitVec.eq_of_toNat_eq
  have h := v.isLt
  rw [BitVec.toNat_ofNat]
  have : 256 ^ n = 2 ^ (8 * n) := by rw [Nat.pow_mul]
  rw [this, Nat.mod_mod, Nat.mod_eq_of_lt h]

theorem readScalar_has {n : Navi} {t : Ty} {v : BitVec (8 * t.bytes)} (h : Has n.s (scalarBytes n.swap t v)) :
    readScalar n t = (some v, { n with s := adv n.s t.bytes }) := by
  have hr := h.read
  rw [scalarBytes_length] at hr
  unfold readScalar
  rw [hr]
  simp only
  congr 2
  rw [scalarBytes, ofNat_leNat_toLE]
  exact enc_enc n.swap t v

/-- Bytes of a run of scalars. -/
def elemBytes (swap : Bool) (t : Ty) (vs : List (BitVec (8 * t.bytes))) : List Byte :=
  vs.flatMap (scalarBytes swap t)

theorem elemBytes_length (swap : Bool) (t : Ty) (vs) : (elemBytes swap t vs).length = t.bytes * vs.length := by
  induction vs with
  | nil => rfl
  | cons a as ih => 
    rw [elemBytes, List.flatMap_cons, List.length_append, scalarBytes_length, ← elemBytes, ih, List.length_cons,
      Nat.mul_succ]; omega

theorem writeScalar_foldl (t : Ty) (vs : List (BitVec (8 * t.bytes))) : ∀ n : Navi,
    vs.foldl (fun n v => writeScalar n t v) n = { n with s := n.s.write (elemBytes n.swap t vs) } := by
  induction vs with
  | nil => intro n; simp [elemBytes, Stream.write]
  | cons a as ih =>
    intro n
    rw [List.foldl_cons, ih]
    simp [writeScalar, write_write, elemBytes]

theorem scalarBytes_noswap (swap : Bool) (t : Ty) (v) (h : ¬ (swap = true ∧ t.bytes > 1)) :
    scalarBytes swap t v = toLE t.bytes v.toNat := by
  unfold scalarBytes
  cases swap
  · rfl
  · cases t
    · rfl
    · exact absurd ⟨rfl, by decide⟩ h
    · exact absurd ⟨rfl, by decide⟩ h
    · exact absurd ⟨rfl, by decide⟩ h

theorem writeElements_eq (n : Navi) (t : Ty) (vs : List (BitVec (8 * t.bytes))) :
    writeElements n t vs = { n with s := n.s.write (elemBytes n.swap t vs) } := by
  unfold writeElements
  by_cases h : n.swap = true ∧ t.bytes > 1
  · rw [if_pos h, writeScalar_foldl]
  · rw [if_neg h]
    have : (fun v => toLE t.bytes v.toNat) = scalarBytes n.swap t := by
      funext v; exact (scalarBytes_noswap _ _ _ h).symm
    rw [this]; rfl

theorem chunks_elem (swap : Bool) (t : Ty) (vs : List (BitVec (8 * t.bytes))) :
    chunks t vs.length (elemBytes swap t vs) = vs.map (enc swap t) := by
  induction vs with
  | nil => rfl
  | cons a as ih =>
    have e : elemBytes swap t (a :: as) = scalarBytes swap t a ++ elemBytes swap t as := rfl
    rw [e, List.length_cons]
    simp only [chunks, List.map_cons]
    congr 1
    · rw [List.take_left' (scalarBytes_length _ _ _), scalarBytes, ofNat_leNat_toLE]; rfl
    · rw [List.drop_left' (scalarBytes_length _ _ _), ih]

theorem readElements_has {n : Navi} {t : Ty} {vs : List (BitVec (8 * t.bytes))}
    (h : Has n.s (elemBytes n.swap t vs)) :
    readElements n t vs.length = (some vs, { n with s := adv n.s (t.bytes * vs.length) }) := by
  unfold readElements
  by_cases hz : vs.length = 0
  · rw [if_pos hz]
    have : vs = [] := by simpa using hz
    subst this; simp [adv]
  · rw [if_neg hz]
    have hr := h.read
    rw [elemBytes_length] at hr
    rw [hr]
    simp only
    congr 2
    rw [chunks_elem, List.map_map]
    conv => rhs; rw [← List.map_id vs]
    apply List.map_congr_left
    intro v _
    exact enc_enc n.swap t v

theorem readCounted_has {n : Navi} {ct t : Ty} {vs : List (BitVec (8 * t.bytes))}
    (hl : vs.length < 2 ^ (8 * ct.bytes))
    (h : Has n.s (scalarBytes n.swap ct (BitVec.ofNat _ vs.length) ++ elemBytes n.swap t vs)) :
    readCounted n ct t = (some vs, { n with s := adv n.s (ct.bytes + t.bytes * vs.length) }) := by
  unfold readCounted
  rw [readScalar_has h.left]
  simp only [BitVec.toNat_ofNat, Nat.mod_eq_of_lt hl]
  have h2 := h.right
  rw [scalarBytes_length] at h2
  rw [readElements_has (n := { n with s := adv n.s ct.bytes }) h2]
  simp [adv_adv]

theorem readStringLoop_has (t : Ty) : ∀ (vs : List (BitVec (8 * t.bytes))) (n : Navi) (f : Nat), vs.length < f →
    0 ∉ vs → Has n.s (elemBytes n.swap t vs ++ scalarBytes n.swap t 0) →
    readStringLoop t f n = some (vs, { n with s := adv n.s (t.bytes * vs.length + t.bytes) }) := by
  intro vs
  induction vs with
  | nil =>
    intro n f hf _ h
    obtain ⟨f, rfl⟩ : ∃ g, f = g + 1 := ⟨f - 1, by omega⟩
    simp only [readStringLoop]
    rw [readScalar_has (v := 0) (by simpa [elemBytes] using h)]
    simp
  | cons a as ih =>
    intro n f hf hz h
    obtain ⟨f, rfl⟩ : ∃ g, f = g + 1 := ⟨f - 1, by omega⟩
    have e : elemBytes n.swap t (a :: as) = scalarBytes n.swap t a ++ elemBytes n.swap t as := rfl
    rw [e, List.append_assoc] at h
    simp only [readStringLoop]
    rw [readScalar_has h.left]
    simp only
    rw [if_neg (by rintro rfl; simp at hz)]
    have h2 := h.right
    rw [scalarBytes_length] at h2
    rw [ih { n with s := adv n.s t.bytes } f (by simp at hf; omega) (by simp at hz; exact fun h => hz.2 h) h2]
    simp only [adv_adv, List.length_cons, Nat.mul_succ]
    congr 4; omega

end PreCore.Stream
