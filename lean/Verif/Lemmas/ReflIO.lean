import Verif.Model.ReflIO
import Verif.Lemmas.Mem
/-!
# Lemmas about `Model/ReflIO`: what `Save` leaves in the body, and what `Load` makes of it
-/
namespace PreCore.ReflIO
open PreCore

/-! ## Statements -/

/-- Bytes `ApplyPadding(8)` appends at position `p`. -/
def padLen (p : Nat) : Nat := if p % 8 = 0 then 0 else 8 - p % 8

def evLen (p : Nat) : Ev → Nat
  | .bytes bs => bs.length
  | .slot _ => 4
  | .dest _ => 0
  | .pad => padLen p

/-- Position after the statements, starting at `p`. -/
def fin (p : Nat) : List Ev → Nat
  | [] => p
  | e :: es => fin (p + evLen p e) es

def evRaw (p : Nat) : Ev → List Byte
  | .bytes bs => bs
  | .slot _ => zeros 4
  | .dest _ => []
  | .pad => zeros (padLen p)

def raw (p : Nat) : List Ev → List Byte
  | [] => []
  | e :: es => evRaw p e ++ raw (p + evLen p e) es

def ptrsOf (q : Q) (p : Nat) : List Ev → List Nat
  | [] => []
  | .slot r :: es => if r = q then p :: ptrsOf q (p + 4) es else ptrsOf q (p + 4) es
  | e :: es => ptrsOf q (p + evLen p e) es

def destsOf (q : Q) (p : Nat) : List Ev → List Nat
  | [] => []
  | .dest r :: es => if r = q then p :: destsOf q p es else destsOf q p es
  | e :: es => destsOf q (p + evLen p e) es

def pop (D : Q → List Nat) (q : Q) : Q → List Nat := fun r => if r = q then (D r).tail else D r

/-- The body with the destinations filled in, `D q` being those not yet used. -/
def render (D : Q → List Nat) (p : Nat) : List Ev → List Byte
  | [] => []
  | .slot q :: es => (if q = .ahash then zeros 4 else toLE 4 ((D q).headD 0)) ++ render (pop D q) (p + 4) es
  | e :: es => evRaw p e ++ render D (p + evLen p e) es

/-- Number of pointers of `q`. -/
def cntS (q : Q) : List Ev → Nat
  | [] => 0
  | .slot r :: es => (if r = q then 1 else 0) + cntS q es
  | _ :: es => cntS q es

/-- Number of destinations of `q`. -/
def cntD (q : Q) : List Ev → Nat
  | [] => 0
  | .dest r :: es => (if r = q then 1 else 0) + cntD q es
  | _ :: es => cntD q es

@[simp] theorem zeros_length (n : Nat) : (zeros n).length = n := by simp [zeros]

theorem evRaw_length (p : Nat) (e : Ev) : (evRaw p e).length = evLen p e := by
  cases e <;> simp [evRaw, evLen]

theorem raw_length (p : Nat) (es : List Ev) : p + (raw p es).length = fin p es := by
  induction es generalizing p with
  | nil => simp [raw, fin]
  | cons e es ih => simp only [raw, fin, List.length_append, evRaw_length, ← ih]; omega

theorem fin_le (p : Nat) (es : List Ev) : p ≤ fin p es := by rw [← raw_length]; omega

theorem fin_append (p : Nat) (a b : List Ev) : fin p (a ++ b) = fin (fin p a) b := by
  induction a generalizing p with
  | nil => rfl
  | cons e a ih => simp [fin, ih]

theorem render_length (D : Q → List Nat) (p : Nat) (es : List Ev) : p + (render D p es).length = fin p es := by
  induction es generalizing p D with
  | nil => simp [render, fin]
  | cons e es ih =>
    cases e with
    | slot q =>
      simp only [render, fin, evLen, List.length_append]
      rw [← ih (pop D q)]
      split <;> simp [toLE_length] <;> omega
    | _ => simp only [render, fin, evRaw_length, List.length_append]; rw [← ih D]; omega

theorem run_from (es : List Ev) (w : W) : es.foldl W.step w =
    ⟨w.buf ++ raw w.buf.length es, fun q => w.ptrs q ++ ptrsOf q w.buf.length es, fun q => w.dests q ++ destsOf q w.buf.length es⟩ := by
  induction es generalizing w with
  | nil => cases w; simp [raw, ptrsOf, destsOf]
  | cons e es ih =>
    rw [List.foldl_cons, ih]
    cases e with
    | bytes bs => simp [W.step, raw, evRaw, evLen, ptrsOf, destsOf]
    | slot q =>
      simp only [W.step, raw, evRaw, evLen, ptrsOf, destsOf, List.length_append, zeros_length, List.append_assoc]
      congr 1
      funext r
      by_cases h : r = q
      · subst h; simp
      · have h' : ¬ q = r := fun e => h e.symm
        simp [h, h']
    | dest q =>
      simp only [W.step, raw, evRaw, evLen, ptrsOf, destsOf, Nat.add_zero]
      congr 1
      funext r
      by_cases h : r = q
      · subst h; simp
      · have h' : ¬ q = r := fun e => h e.symm
        simp [h, h']
    | pad => simp [W.step, raw, evRaw, evLen, ptrsOf, destsOf, padLen]

theorem run_eq (es : List Ev) : run es = ⟨raw 0 es, fun q => ptrsOf q 0 es, fun q => destsOf q 0 es⟩ := by
  rw [run, run_from]; simp

/-! ## `WriteFixups` -/

def patchFrom (p : Nat) (buf : List Byte) (fs : List (Nat × Nat)) : List Byte :=
  fs.foldl (fun b f => Stream.overwrite b (f.1 - p) (toLE 4 f.2)) buf

theorem patch_eq (buf : List Byte) (fs : List (Nat × Nat)) : patch buf fs = patchFrom 0 buf fs := rfl

theorem overwrite_shift (Y Z : List Byte) (k : Nat) (bs : List Byte) :
    Stream.overwrite (Y ++ Z) (Y.length + k) bs = Y ++ Stream.overwrite Z k bs := by
  simp only [Stream.overwrite, List.take_length_add_append, List.length_append]
  rw [show Y.length + k - (Y.length + Z.length) = k - Z.length by omega,
    show Y.length + k + bs.length = Y.length + (k + bs.length) by omega, List.drop_length_add_append]
  simp

theorem patchFrom_shift (p : Nat) (Y Z : List Byte) (fs : List (Nat × Nat)) (h : ∀ f ∈ fs, p + Y.length ≤ f.1) :
    patchFrom p (Y ++ Z) fs = Y ++ patchFrom (p + Y.length) Z fs := by
  induction fs generalizing Z with
  | nil => rfl
  | cons f fs ih =>
    simp only [patchFrom, List.foldl_cons]
    have h1 := h f (by simp)
    rw [show f.1 - p = Y.length + (f.1 - (p + Y.length)) by omega, overwrite_shift]
    exact ih _ (fun g hg => h g (by simp [hg]))

theorem ptrsOf_ge (q : Q) (p : Nat) (es : List Ev) : ∀ x ∈ ptrsOf q p es, p ≤ x := by
  induction es generalizing p with
  | nil => simp [ptrsOf]
  | cons e es ih =>
    cases e with
    | slot r =>
      intro x hx
      simp only [ptrsOf] at hx
      split at hx
      · rcases List.mem_cons.mp hx with h | h
        · omega
        · have := ih _ x h; omega
      · have := ih _ x hx; omega
    | _ => intro x hx; have := ih _ x hx; omega

theorem zip_ge {q : Q} {p k : Nat} {es : List Ev} {D : List Nat} (h : k ≤ p) : ∀ f ∈ (ptrsOf q p es).zip D, k ≤ f.1 := by
  intro f hf
  have := ptrsOf_ge q p es f.1 (List.of_mem_zip hf).1
  omega

/-- The five calls of `WriteFixups`. -/
def patch5 (p : Nat) (G : Q → List (Nat × Nat)) (buf : List Byte) : List Byte :=
  patchFrom p (patchFrom p (patchFrom p (patchFrom p (patchFrom p buf (G .item)) (G .strs)) (G .cls)) (G .alias)) (G .desc)

theorem patch5_shift (p : Nat) (G : Q → List (Nat × Nat)) (Y Z : List Byte) (h : ∀ q, ∀ f ∈ G q, p + Y.length ≤ f.1) :
    patch5 p G (Y ++ Z) = Y ++ patch5 (p + Y.length) G Z := by
  simp only [patch5]
  rw [patchFrom_shift _ _ _ _ (h .item), patchFrom_shift _ _ _ _ (h .strs), patchFrom_shift _ _ _ _ (h .cls),
    patchFrom_shift _ _ _ _ (h .alias), patchFrom_shift _ _ _ _ (h .desc)]

theorem toLE4_zero : toLE 4 0 = zeros 4 := by decide

theorem patchFrom_first (p d : Nat) (Y Z : List Byte) (hY : Y.length = 4) (fs : List (Nat × Nat)) (h : ∀ f ∈ fs, p + 4 ≤ f.1) :
    patchFrom p (Y ++ Z) ((p, d) :: fs) = toLE 4 d ++ patchFrom (p + 4) Z fs := by
  simp only [patchFrom, List.foldl_cons, Nat.sub_self]
  have : Stream.overwrite (Y ++ Z) 0 (toLE 4 d) = toLE 4 d ++ Z := by
    simp [Stream.overwrite, toLE_length, ← hY]
  rw [this]
  have := patchFrom_shift p (toLE 4 d) Z fs (by simpa [toLE_length] using h)
  rw [toLE_length] at this
  exact this

theorem patch5_render (D : Q → List Nat) (p : Nat) (es : List Ev) :
    patch5 p (fun q => (ptrsOf q p es).zip (D q)) (raw p es) = render D p es := by
  induction es generalizing p D with
  | nil => simp [patch5, ptrsOf, raw, render, patchFrom]
  | cons e es ih =>
    have other : ∀ e : Ev, (∀ q, e ≠ .slot q) →
        patch5 p (fun q => (ptrsOf q p (e :: es)).zip (D q)) (raw p (e :: es)) = render D p (e :: es) := by
      intro e he
      have h1 : ∀ q, ptrsOf q p (e :: es) = ptrsOf q (p + evLen p e) es := by
        intro q; cases e <;> first | rfl | exact absurd rfl (he _)
      have h2 : render D p (e :: es) = evRaw p e ++ render D (p + evLen p e) es := by
        cases e <;> first | rfl | exact absurd rfl (he _)
      simp only [h1, h2, raw]
      rw [patch5_shift]
      · rw [evRaw_length, ih]
      · intro q; rw [evRaw_length]; exact zip_ge (Nat.le_refl _)
    cases e with
    | slot r =>
      have hs : ∀ q, q ≠ r → ptrsOf q p (.slot r :: es) = ptrsOf q (p + 4) es := by
        intro q hq
        have h' : ¬ r = q := fun e => hq e.symm
        simp [ptrsOf, h']
      have hr : ptrsOf r p (.slot r :: es) = p :: ptrsOf r (p + 4) es := by simp [ptrsOf]
      have hpop : ∀ q, q ≠ r → pop D r q = D q := by intro q hq; simp [pop, hq]
      have hpr : pop D r r = (D r).tail := by simp [pop]
      have key := ih (pop D r) (p + 4)
      simp only [patch5] at key ⊢
      simp only [raw, evRaw, evLen, render]
      have sh : ∀ (q : Q) (Y Z : List Byte), Y.length = 4 → q ≠ r →
          patchFrom p (Y ++ Z) ((ptrsOf q p (.slot r :: es)).zip (D q)) =
            Y ++ patchFrom (p + 4) Z ((ptrsOf q (p + 4) es).zip (pop D r q)) := by
        intro q Y Z hY hq
        rw [hs q hq, hpop q hq, patchFrom_shift _ _ _ _ (by rw [hY]; exact zip_ge (Nat.le_refl _)), hY]
      have fi : ∀ (Z : List Byte), patchFrom p (zeros 4 ++ Z) ((ptrsOf r p (.slot r :: es)).zip (D r)) =
            toLE 4 ((D r).headD 0) ++ patchFrom (p + 4) Z ((ptrsOf r (p + 4) es).zip (pop D r r)) := by
        intro Z
        rw [hr, hpr]
        cases hD : D r with
        | nil =>
          simp only [List.zip_nil_right, List.tail_nil, List.headD_nil, toLE4_zero]
          rfl
        | cons d ds =>
          simp only [List.zip_cons_cons, List.tail_cons, List.headD_cons]
          exact patchFrom_first _ _ _ _ (by simp) _ (zip_ge (Nat.le_refl _))
      have l4 : (toLE 4 ((D r).headD 0)).length = 4 := toLE_length _ _
      cases r <;>
        simp only [reduceCtorEq, if_false, if_true] <;>
        (repeat first
          | rw [fi]
          | (rw [sh _ _ _ (by first | exact l4 | exact zeros_length 4) (by decide)])) <;>
        rw [key]
    | bytes bs => exact other _ (by intro q; simp)
    | dest r => exact other _ (by intro q; simp)
    | pad => exact other _ (by intro q; simp)

theorem fixAll_run (es : List Ev) : fixAll (run es) = render (fun q => destsOf q 0 es) 0 es := by
  rw [run_eq, ← patch5_render]
  rfl

/-! ## Splitting -/

theorem cntS_append (q : Q) (a b : List Ev) : cntS q (a ++ b) = cntS q a + cntS q b := by
  induction a with
  | nil => simp [cntS]
  | cons e a ih => cases e <;> simp [cntS, ih]; omega

theorem cntD_append (q : Q) (a b : List Ev) : cntD q (a ++ b) = cntD q a + cntD q b := by
  induction a with
  | nil => simp [cntD]
  | cons e a ih => cases e <;> simp [cntD, ih]; omega

theorem cntS_flatMap {α : Type} (q : Q) (f : α → List Ev) (l : List α) : cntS q (l.flatMap f) = (l.map (fun a => cntS q (f a))).sum := by
  induction l with
  | nil => rfl
  | cons a l ih => simp [cntS_append, ih]

theorem cntD_flatMap {α : Type} (q : Q) (f : α → List Ev) (l : List α) : cntD q (l.flatMap f) = (l.map (fun a => cntD q (f a))).sum := by
  induction l with
  | nil => rfl
  | cons a l ih => simp [cntD_append, ih]

theorem destsOf_append (q : Q) (p : Nat) (a b : List Ev) : destsOf q p (a ++ b) = destsOf q p a ++ destsOf q (fin p a) b := by
  induction a generalizing p with
  | nil => simp [destsOf, fin]
  | cons e a ih =>
    cases e with
    | dest r => simp only [List.cons_append, destsOf, fin, evLen, Nat.add_zero, ih]; split <;> simp
    | _ => simp [destsOf, fin, ih]

theorem destsOf_length (q : Q) (p : Nat) (a : List Ev) : (destsOf q p a).length = cntD q a := by
  induction a generalizing p with
  | nil => rfl
  | cons e a ih =>
    cases e with
    | dest r => simp only [destsOf, cntD]; split <;> simp [ih]; omega
    | _ => simp [destsOf, cntD, ih]

/-- The destination with number `cntD q pre` is the position of its statement. -/
theorem dest_at (q : Q) (es pre post : List Ev) (h : es = pre ++ .dest q :: post) :
    (destsOf q 0 es).getD (cntD q pre) 0 = fin 0 pre := by
  subst h
  rw [destsOf_append, ← destsOf_length q 0 pre]
  simp [destsOf]

def dropD (D : Q → List Nat) (a : List Ev) : Q → List Nat := fun q => (D q).drop (cntS q a)

theorem pop_dropD (D : Q → List Nat) (r : Q) (a : List Ev) : dropD (pop D r) a = dropD D (.slot r :: a) := by
  funext q
  by_cases h : q = r
  · subst h; simp [dropD, pop, cntS, List.drop_tail, Nat.add_comm]
  · have h' : ¬ r = q := fun h' => h (Eq.symm h')
    simp [dropD, pop, cntS, h, h']

theorem render_append (D : Q → List Nat) (p : Nat) (a b : List Ev) :
    render D p (a ++ b) = render D p a ++ render (dropD D a) (fin p a) b := by
  induction a generalizing p D with
  | nil =>
    have : dropD D [] = D := by funext q; simp [dropD, cntS]
    simp [render, fin, this]
  | cons e a ih =>
    cases e with
    | slot r => simp only [List.cons_append, render, fin, evLen, ih, List.append_assoc, pop_dropD]
    | _ => simp only [List.cons_append, render, fin, ih, List.append_assoc]; rfl

end PreCore.ReflIO
