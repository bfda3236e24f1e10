import Verif.Basic
/-!
# Model of `CharSequence` (`src/helper.rs:77-197`), at the byte level
-/

namespace Verif

/-- `usize::MAX` on a 64-bit target (helper.rs:175-197, the inclusive ranges). -/
def usizeMax : Nat := 2 ^ 64 - 1

/-- `CharSequence` (helper.rs:83-87). -/
structure CharSequence where
  inner : Str
  lenInChar : Nat
deriving DecidableEq, Repr

namespace CharSequence

/-- `From<&str>` (helper.rs:113-121). -/
def ofStr (original : Str) : CharSequence := { inner := original, lenInChar := original.length }

/-- `len` (helper.rs:98-100). -/
def len (self : CharSequence) : Nat := self.lenInChar

/-- `is_empty` (helper.rs:103-105). -/
def isEmpty (self : CharSequence) : Bool := self.lenInChar == 0

/-- `as_str` (helper.rs:108-110). -/
def asStr (self : CharSequence) : Str := self.inner

/-- `str::char_indices`: every character with its byte offset, from offset `off` (helper.rs:136). -/
def charIndicesFrom (off : Nat) : Str → List (Nat × Char)
  | [] => []
  | c :: cs => (off, c) :: charIndicesFrom (off + c.utf8Size) cs

/-- `Index<Range<usize>>` (helper.rs:135-156). `skip(n)` is `drop n`, `next()` is `head?`. -/
def indexRange (self : CharSequence) (start stop : Nat) : Res Str :=
  let iterator := (charIndicesFrom 0 self.inner).drop start
  let startItem := iterator.head?
  let iterator := iterator.tail
  if stop > start then
    let skip := stop - (start + 1)
    let iterator := iterator.drop skip
    let endItem := iterator.head?
    match startItem with
    | none => .ok []
    | some (s, _) =>
      match endItem with
      | none => sliceFrom self.inner s
      | some (e, _) => slice self.inner s e
  else .ok []

/-- `Index<RangeFrom<usize>>` (helper.rs:162-164). -/
def indexFrom (self : CharSequence) (start : Nat) : Res Str := self.indexRange start self.lenInChar

/-- `Index<RangeFull>` (helper.rs:170-172). -/
def indexFull (self : CharSequence) : Res Str := self.indexRange 0 self.lenInChar

/-- `Index<RangeInclusive<usize>>` (helper.rs:178-180); `end + 1` overflows for `usize::MAX`
(a panic with overflow checks; without them it would wrap to 0). -/
def indexInclusive (self : CharSequence) (start stop : Nat) : Res Str :=
  if stop < usizeMax then self.indexRange start (stop + 1) else .error .overflow

/-- `Index<RangeTo<usize>>` (helper.rs:186-188). -/
def indexTo (self : CharSequence) (stop : Nat) : Res Str := self.indexRange 0 stop

/-- `Index<RangeToInclusive<usize>>` (helper.rs:194-196). -/
def indexToInclusive (self : CharSequence) (stop : Nat) : Res Str := self.indexInclusive 0 stop

end CharSequence

end Verif
