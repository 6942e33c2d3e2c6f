import Verif.Base.Outcome

/-!
# Model of db/silkworm/db/bitmap.cpp 34-101

A bitmap is the increasing list of its elements. The size of its serialised form depends on the containers that CRoaring chose
and is a parameter. The sources of CRoaring are not in the repository; assumed is its documented behaviour: the smallest element
of an empty bitmap is the largest number and its largest element 0, `roaring_bitmap_from_range` stops at 2^32 and returns a null
pointer for an empty range, which the constructors of the C++ classes dereference.
-/

namespace Silkworm.Db.Bitmap

/-- `minimum()` of a bitmap of numbers below `w`. -/
def minimum (w : Nat) : List Nat → Nat
  | [] => w - 1
  | x :: _ => x

/-- `maximum()`. -/
def maximum (bm : List Nat) : Nat := bm.getLast?.getD 0

/-- `roaring_bitmap_from_range(lo, hi, 1)` followed by `&= bm`; no value for the null pointer. -/
def fromRangeAnd (lo hi : Nat) (bm : List Nat) : Option (List Nat) :=
  let hi := min hi (2 ^ 32)
  if hi ≤ lo then none else some (bm.filter fun x => lo ≤ x ∧ x < hi)

/-- db/silkworm/db/bitmap.cpp:47-60 and 82-94: the loop `while (i < j)`; `fits i` tells whether the elements from the smallest
one on up to `i` more fit. At most `fuel` rounds; the distance between `i` and `j` decreases in each. -/
def cutPoint (fits : Nat → Bool) : Nat → Nat → Nat → Nat
  | 0, i, _ => i
  | fuel + 1, i, j =>
    if i < j then
      let h := (i + j) / 2
      if fits i then cutPoint fits fuel (h + 1) j else cutPoint fits fuel i h
    else i

/-- db/silkworm/db/bitmap.cpp:54-56: the size of the elements up to `i` after the smallest one. -/
def fitsUpTo (size : List Nat → Nat) (bm : List Nat) (start limit i : Nat) : Bool :=
  match fromRangeAnd start (start + i + 1) bm with
  | none => false
  | some c => size c ≤ limit

/-- db/silkworm/db/bitmap.cpp:34-69 (`cut_left` on `Roaring64Map`): the part cut off and the rest. The loop over `k` does not
end if its bound is the largest number. -/
def cutLeft64 (size : List Nat → Nat) (bm : List Nat) (limit : Nat) : Outcome Empty (List Nat × List Nat) :=
  if size bm ≤ limit then
    match fromRangeAnd (minimum (2 ^ 64) bm) ((maximum bm + 1) % 2 ^ 64) bm with
    | none => .ub
    | some c => .ok (c, [])
  else
    let start := minimum (2 ^ 64) bm
    let i := cutPoint (fitsUpTo size bm start limit) (maximum bm - start + 1) (maximum bm - start) 0
    match fromRangeAnd start (start + i) bm with
    | none => .ub
    | some c =>
      if start + i = 2 ^ 64 - 1 then .ub
      else .ok (c, bm.filter fun x => ¬(start ≤ x ∧ x ≤ start + i))

/-- db/silkworm/db/bitmap.cpp:71-101 (`cut_left` on `Roaring`). -/
def cutLeft32 (size : List Nat → Nat) (bm : List Nat) (limit : Nat) : Outcome Empty (List Nat × List Nat) :=
  if size bm ≤ limit then
    match fromRangeAnd (minimum (2 ^ 32) bm) ((maximum bm + 1) % 2 ^ 32) bm with
    | none => .ub
    | some c => .ok (c, [])
  else
    let start := minimum (2 ^ 32) bm
    let i := cutPoint (fitsUpTo size bm start limit) (maximum bm - start + 1) (maximum bm - start) 0
    match fromRangeAnd start (start + i) bm with
    | none => .ub
    | some c => .ok (c, bm.filter fun x => ¬(start ≤ x ∧ x ≤ (start + i) % 2 ^ 32))

/-- db/silkworm/stagedsync/stage_history_index.cpp:136-148 and stage_log_index.cpp:51-64: chunks are cut off until nothing is
left. `fuel` bounds the number of rounds; more rounds are treated as an endless loop. -/
def chunks (cut : List Nat → Outcome Empty (List Nat × List Nat)) : Nat → List Nat → Outcome Empty (List (List Nat))
  | fuel, bm =>
    if bm = [] then .ok []
    else
      match fuel with
      | 0 => .ub
      | fuel + 1 => do
        let (c, rest) ← cut bm
        let cs ← chunks cut fuel rest
        .ok (c :: cs)

end Silkworm.Db.Bitmap
