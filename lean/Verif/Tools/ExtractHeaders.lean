import Verif.Db.Access

/-!
# Extracting headers

Model of cmd/extract_headers.cpp. The tables are given, the file is what is written to it; the clock and the messages on the console
are left out.
-/

namespace Silkworm.Tools

open Silkworm.Db

/-- The alphabet of `boost::beast::detail::base64`. -/
def kBase64 : Bytes := ascii "ABCDEFGHIJKLMNOPQRSTUVWXYZabcdefghijklmnopqrstuvwxyz0123456789+/"

/-- The sign of a value. -/
def sign (n : Nat) : UInt8 := kBase64.getD n 0

/-- `=` -/
def kPad : UInt8 := 61

/-- `boost::beast::detail::base64::encode`: `(in[0] & 0xfc) >> 2`, `((in[0] & 3) << 4) + ((in[1] & 0xf0) >> 4)` and so on. -/
def encodePadded : Bytes → Bytes
  | a :: b :: c :: t =>
    sign (a.toNat / 4) :: sign (a.toNat % 4 * 16 + b.toNat / 16) :: sign (b.toNat % 16 * 4 + c.toNat / 64) :: sign (c.toNat % 64) ::
      encodePadded t
  | [a, b] => [sign (a.toNat / 4), sign (a.toNat % 4 * 16 + b.toNat / 16), sign (b.toNat % 16 * 4), kPad]
  | [a] => [sign (a.toNat / 4), sign (a.toNat % 4 * 16), kPad, kPad]
  | [] => []

/-- cmd/extract_headers.cpp:165-173 (`base64encode`). Without bytes the indices are those before the first character. -/
def base64encode (b : Bytes) : Outcome Empty Bytes :=
  let e := encodePadded b
  if e.length < 2 then .ub
  else
    let padding := (if e.getD (e.length - 1) 0 = kPad then 1 else 0) + (if e.getD (e.length - 2) 0 = kPad then 1 else 0)
    .ok (e.take (e.length - padding))

/-- cmd/extract_headers.cpp:154-162 before the `@`. -/
def templateBegin : Bytes :=
  ascii "\n    // hard coded headers\n    #include <silkworm/db/header_download.hpp> // ?\n\n    const char* hard_coded_headers[] = {   // \"header1\"; \"header2\"; ...\n        "

/-- cmd/extract_headers.cpp:154-162 after the `@`. -/
def templateEnd : Bytes := ascii "\n    };\n    "

/-- cmd/extract_headers.cpp:119-163 (`HeaderListFile`). -/
structure ListFile where
  output : Bytes := []
  empty : Bool := true
  deriving DecidableEq

/-- cmd/extract_headers.cpp:122-131 (`add_header`). -/
def ListFile.addHeader (f : ListFile) (header : Bytes) : ListFile :=
  { output := f.output ++ (if f.empty then templateBegin else ascii ",\n") ++ ascii "    \"" ++ header ++ ascii "\""
    empty := false }

/-- cmd/extract_headers.cpp:132-139 (`close`): what is in the file then. The destructor closes it too. -/
def ListFile.close (f : ListFile) : Bytes := if f.empty then f.output else f.output ++ ascii "\n" ++ templateEnd

/-- cmd/extract_headers.cpp:63-73 (`read_canonical_hash`): 32 bytes are copied. -/
def readCanonical (db : Database) (n : Nat) : Outcome Empty (Option Bytes) :=
  match db.canonicalHashes.find (blockKey n) with
  | none => .ok none
  | some e => if e.2.length < 32 then .ub else .ok (some (e.2.take 32))

/-- How the loop ends. -/
inductive Extraction
  /-- With the block number at which it ended. -/
  | ended (n : Nat)
  /-- By an exception, because there is no header for a canonical hash. -/
  | noHeader (n : Nat)
  deriving DecidableEq

/-- cmd/extract_headers.cpp:202-208: the loop, with at most `fuel` rounds; `none` if these are not enough. -/
def extractLoop (db : Database) (step : Nat) : Nat → Nat → ListFile → Option (Outcome Empty (Extraction × ListFile))
  | 0, _, _ => none
  | fuel + 1, n, f =>
    if n < 2 ^ 64 - 1 then
      match readCanonical db n with
      | .ok none => some (.ok (.ended n, f))
      | .ok (some hash) =>
        match db.headers.find (blockHashKey n hash) with
        | none => some (.ok (.noHeader n, f))
        | some e =>
          match base64encode e.2 with
          | .ok text => extractLoop db step fuel ((n + step) % 2 ^ 64) (f.addHeader text)
          | .err e => nomatch e
          | .ub => some .ub
      | .err e => nomatch e
      | .ub => some .ub
    else some (.ok (.ended n, f))

/-- cmd/extract_headers.cpp:81-91, 106-115, 214-217: the header that the head refers to, if any; `head` is the table `LastHeader`. -/
def readHead (db : Database) (head : Table) : Outcome DbError (Option BlockHeader) :=
  match head.find (ascii "LastHeader") with
  | none => .ok none
  | some e =>
    if e.2.length < 32 then .ub
    else
      match db.headerNumbers.find (e.2.take 32) with
      | none => .ok none
      | some f => if f.2.length < 8 then .ub else readHeader db (beToNat (f.2.take 8)) (e.2.take 32)

/-- cmd/extract_headers.cpp:196-226: the file that is left and the exit code. -/
def extractHeaders (db : Database) (head : Table) (step fuel : Nat) : Option (Outcome Empty (Bytes × Nat)) :=
  match extractLoop db step fuel 0 {} with
  | none => none
  | some .ub => some .ub
  | some (.err e) => nomatch e
  | some (.ok (.noHeader _, f)) => some (.ok (f.close, 1))
  | some (.ok (.ended _, f)) =>
    match readHead db head with
    | .ub => some .ub
    | .ok (some _) => some (.ok (f.close, 0))
    | _ => some (.ok (f.close, 1))

end Silkworm.Tools
