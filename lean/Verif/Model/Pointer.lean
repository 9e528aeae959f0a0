/-!
# Model of datas/pointer.hpp (64 bit build)

The memory cell of a pointer is identified by its address. `usedPts` is the list of fixed addresses of the thread.
-/
namespace PreCore.Pointer

/-- An address (pointer.hpp:52-65). -/
abbrev Addr := BitVec 64

/-- `Pointer_t<C, uint64>::Fixup` (pointer.hpp:52-65) for the pointer at `self` holding `v`: result, new content, new
`usedPts`. -/
def fixup64 (used : List Addr) (self root : Addr) (noCheck : Bool) (v : BitVec 64) : Bool × BitVec 64 × List Addr :=
  if !noCheck && used.contains self then (false, v, used)
  else if v = 0 then (false, v, used ++ [self])
  else (true, root + v, used ++ [self])

/-- `Pointer_t::operator C *` (pointer.hpp:35). -/
def deref64 (v : BitVec 64) : Addr := v

/-- `PointerX86::operator=` (pointer.hpp:114-120). -/
def assign32 (self dest : Addr) : BitVec 32 := (dest - self).setWidth 32

/-- `PointerX86::operator C *` (pointer.hpp:75-79); 0 is the null pointer. -/
def deref32 (self : Addr) (v : BitVec 32) : Addr := if v = 0 then 0 else self + v.signExtend 64

/-- `PointerX86::Fixup` (pointer.hpp:97-112). -/
def fixup32 (used : List Addr) (self root : Addr) (noCheck : Bool) (v : BitVec 32) : Bool × BitVec 32 × List Addr :=
  if !noCheck && used.contains self then (false, v, used)
  else if v = 0 then (false, v, used ++ [self])
  else (true, assign32 self (root + v.signExtend 64), used ++ [self])

/-- `Fixed` (pointer.hpp:47-50, 92-95). -/
def fixed (used : List Addr) (self : Addr) : Bool := used.any (fun i => i = self)

/-- Pointers in memory and the list of one thread. (pointer.hpp:97-112) -/
structure World (α : Type) where
  mem : Addr → α
  used : List Addr

/-- A sequence of `Fixup(root)` calls on pointers at the given addresses (do not overlap). (pointer.hpp:97-112) -/
def fixAll64 : List (Addr × Addr) → World (BitVec 64) → World (BitVec 64)
  | [], w => w
  | (self, root) :: l, w =>
    let r := fixup64 w.used self root false (w.mem self)
    fixAll64 l ⟨fun a => if a = self then r.2.1 else w.mem a, r.2.2⟩

/-- The same for `PointerX86`. (pointer.hpp:97-112) -/
def fixAll32 : List (Addr × Addr) → World (BitVec 32) → World (BitVec 32)
  | [], w => w
  | (self, root) :: l, w =>
    let r := fixup32 w.used self root false (w.mem self)
    fixAll32 l ⟨fun a => if a = self then r.2.1 else w.mem a, r.2.2⟩

end PreCore.Pointer
