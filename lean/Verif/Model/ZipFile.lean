import Verif.Model.BinFile
/-!
# Model of `ZIPVFSFile` (datas/zip_vfs.hpp:24-31) and of how `ZIPVFS::Get` returns it

The member `reader` holds the address of a `buffer`; the implicit move constructor moves `buffer` and copies `reader` with the old address.
Objects, addresses and moves are those of `Verif.Model.BinFile`. A moved-from `std::istringstream` is taken as empty.
-/
namespace PreCore.ZipFile
open PreCore.Stream PreCore.BinFile

/-- `ZIPVFSFile(std::string &&)` at address `i` (zip_vfs.hpp:30). -/
def construct (content : List Byte) (i : Nat) (w : World) : World :=
  w.set i (some ⟨true, ⟨⟨content, 0, false, false⟩, 0, 0, false⟩, some i⟩)

/-- The implicit move constructor from `i` to `j` (zip_vfs.hpp:24-31). -/
def moveTo (i j : Nat) (w : World) : World :=
  match w i with
  | none => w
  | some o => (w.set i (some { o with isOpen := false, navi := { o.navi with s := closed } })).set j (some o)

/-- `Get` (zip_vfs.hpp:45-52): `retVal` is the object at `i` when the compiler elides the copy (`elided`, allowed and usual but not
demanded for a named variable), else it is a local object at `tmp` that is moved and destroyed. -/
def get (elided : Bool) (content : List Byte) (tmp i : Nat) (w : World) : World :=
  if elided then construct content i w else ((moveTo tmp i (construct content tmp w)).set tmp none)

/-- What a program does with such files (zip_vfs.hpp:24-59). -/
inductive Op (α : Type)
  /-- `auto f = zip.Get(...)` for a member with this content. -/
  | get (i : Nat) (content : List Byte)
  /-- `auto g = std::move(f)`. -/
  | move (i j : Nat)
  | destroy (i : Nat)
  /-- Any use of the functions of `f.reader`. -/
  | use (i : Nat) (f : Navi → α × Navi)

/-- One operation (zip_vfs.hpp:24-59); `none` is undefined behaviour, the inner `none` is a call without a value. -/
def step {α : Type} (elided : Bool) (tmp : Nat) (w : World) : Op α → Option (Option α × World)
  | .get i c => some (none, get elided c tmp i w)
  | .move i j => if (w i).isSome then some (none, moveTo i j w) else none
  | .destroy i => if (w i).isSome then some (none, w.set i none) else none
  | .use i f =>
    match w i with
    | none => none
    | some o =>
      match o.base.bind w with
      | none => none
      | some ob =>
        let r := f { o.navi with s := ob.navi.s }
        let b := o.base.getD i
        let w := w.set b (some { ob with navi := { ob.navi with s := r.2.s } })
        some (some r.1, match w i with
          | some o => w.set i (some { o with navi := { r.2 with s := o.navi.s } })
          | none => w)

/-- A program: what its uses yield, `none` if something undefined happens (calls of zip_vfs.hpp:24-59). -/
def run {α : Type} (elided : Bool) (tmp : Nat) : List (Op α) → World → Option (List α)
  | [], _ => some []
  | op :: l, w =>
    match step elided tmp w op with
    | none => none
    | some (v, w) => (run elided tmp l w).map (v.toList ++ ·)

end PreCore.ZipFile
