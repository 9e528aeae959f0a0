/-!
# Shared vocabulary of the model

A byte is a `BitVec 8`; a file or memory block is a `List Byte`.
-/
namespace PreCore

/-- One octet of a stream or of memory (`uint8`, datas/internal/sc_type.hpp). -/
abbrev Byte := BitVec 8

end PreCore
