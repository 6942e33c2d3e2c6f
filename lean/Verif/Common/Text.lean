import Verif.Common.Util

/-!
# Model of core/silkworm/common/util.cpp 154-246 and db/silkworm/common/data_dir.cpp 50-90

Characters are bytes; `char` is signed and the locale is "C". `human_size`, which computes with floating-point numbers, is not
modelled.
-/

namespace Silkworm

/-- A string of ASCII characters. -/
def chars (s : String) : Bytes := s.toList.map fun c => UInt8.ofNat c.toNat

/-- `tolower`: undefined for a `char` that is negative. -/
def toLower (c : UInt8) : Outcome Empty UInt8 :=
  if c ≥ 0x80 then .ub else if 0x41 ≤ c ∧ c ≤ 0x5a then .ok (c + 0x20) else .ok c

/-- core/silkworm/common/util.cpp:157-159: `std::equal` with `case_insensitive_char_comparer`, up to the first difference. -/
def equalNoCase : Bytes → Bytes → Outcome Empty Bool
  | a :: as, b :: bs =>
    (toLower a).bind fun x => (toLower b).bind fun y => if x = y then equalNoCase as bs else .ok false
  | _, _ => .ok true

/-- core/silkworm/common/util.cpp:157-159 (`iequals`). -/
def iequals (a b : Bytes) : Outcome Empty Bool := if a.length = b.length then equalNoCase a b else .ok false

/-! ## Sizes -/

/-- `\d`. -/
def isDigit (c : UInt8) : Bool := decide (0x30 ≤ c ∧ c ≤ 0x39)

/-- `strtoull(…, nullptr, 10)` on digits: the largest number if the value does not fit. -/
def strtoull (digits : Bytes) : Nat := min (digits.foldl (fun n c => 10 * n + (c.toNat - 0x30)) 0) (2 ^ 64 - 1)

/-- `(\.\d{1,3})?` at core/silkworm/common/util.cpp:167: the digits and what follows. All of the digits have to be taken: what
may follow them does not begin with a digit. -/
def takeDecimals (s : Bytes) : Option (Bytes × Bytes) :=
  match s with
  | 0x2e :: t =>
    let d := t.takeWhile isDigit
    if d.length = 0 ∨ 3 < d.length then none else some (d, t.dropWhile isDigit)
  | _ => some ([], s)

/-- core/silkworm/common/util.cpp:174 and 183-193: the suffix and its multiplier; the pattern takes no account of case. -/
def suffixMultiplier (s : Bytes) : Option Nat :=
  if s = [] then some 1
  else
    let upper := s.map fun c => if 0x61 ≤ c ∧ c ≤ 0x7a then c - 0x20 else c
    if upper = chars "B" then some 1
    else if upper = chars "KB" then some (2 ^ 10)
    else if upper = chars "MB" then some (2 ^ 20)
    else if upper = chars "GB" then some (2 ^ 30)
    else if upper = chars "TB" then some (2 ^ 40)
    else none

/-- core/silkworm/common/util.cpp:161-204 (`parse_size`): arithmetic is modulo 2^64. The expression
`^(\d*)(\.\d{1,3})?\ *?(B|KB|MB|GB|TB)?$` can match in one way only; the three parts are taken from left to right. -/
def parseSize (s : Bytes) : Option Nat :=
  if s = [] then some 0
  else
    let int := s.takeWhile isDigit
    match takeDecimals (s.dropWhile isDigit) with
    | none => none
    | some (dec, rest) =>
      match suffixMultiplier (rest.dropWhile fun c => c = 0x20) with
      | none => none
      | some m =>
        let number := strtoull int * m % 2 ^ 64
        if dec = [] then some number
        else some ((number + m * strtoull dec % 2 ^ 64 / 10 ^ dec.length) % 2 ^ 64)

/-! ## Splitting -/

/-- `source.find(delimiter)`. -/
def findSub (delimiter : Bytes) : Bytes → Option Nat
  | [] => if delimiter = [] then some 0 else none
  | c :: s => if delimiter.isPrefixOf (c :: s) then some 0 else (findSub delimiter s).map (· + 1)

/-- core/silkworm/common/util.cpp:238-245: the loop and what remains after it, for a delimiter that is not empty; every round
takes the delimiter off, so that as many rounds as there are characters are enough. -/
def splitLoop (delimiter : Bytes) : Nat → Bytes → List Bytes
  | 0, source => if source = [] then [] else [source]
  | rounds + 1, source =>
    match findSub delimiter source with
    | none => if source = [] then [] else [source]
    | some pos => source.take pos :: splitLoop delimiter rounds (source.drop (pos + delimiter.length))

/-- core/silkworm/common/util.cpp:231-246 (`split`). -/
def split (source delimiter : Bytes) : List Bytes :=
  if delimiter.length ≥ source.length ∨ delimiter.length = 0 then [source] else splitLoop delimiter source.length source

/-! ## Directories -/

/-- `path / name` for a relative name: a separator is added unless the path is empty or ends with one. -/
def pathAppend (path name : Bytes) : Bytes := if path = [] ∨ path.getLast? = some 0x2f then path ++ name else path ++ 0x2f :: name

/-- The exceptions of `from_chaindata`. -/
inductive PathError where
  | notADirectory
  | invalidBase
  | notChaindata
  deriving DecidableEq, Repr

/-- `path.has_filename()`: the path does not end with a separator. -/
def hasFilename (path : Bytes) : Bool := path != [] && path.getLast? != some 0x2f

/-- `if (path.has_filename()) path += preferred_separator`. -/
def withSeparator (path : Bytes) : Bytes := if hasFilename path then path ++ [0x2f] else path

/-- db/silkworm/common/data_dir.cpp:22-33: `base_path_` and `chaindata_path_` of a directory. -/
def directoryPaths (base : Bytes) : Bytes × Bytes :=
  (withSeparator base, withSeparator (pathAppend (pathAppend base (chars "erigon")) (chars "chaindata")))

/-- db/silkworm/common/data_dir.cpp:50-90 (`from_chaindata`): the path of the data directory. `isDirectory` is the file
system; the paths are POSIX paths. -/
def fromChaindata (isDirectory : Bytes → Bool) (path : Bytes) : Outcome PathError Bytes :=
  if !isDirectory path then .err .notADirectory
  else
    let tokens := split (withSeparator path) [0x2f]
    if tokens.length ≤ 2 then .err .invalidBase
    else
      match iequals (tokens.getD (tokens.length - 1) []) (chars "chaindata") with
      | .ub => .ub
      | .err e => e.elim
      | .ok false => .err .notChaindata
      | .ok true =>
        match iequals (tokens.getD (tokens.length - 2) []) (chars "erigon") with
        | .ub => .ub
        | .err e => e.elim
        | .ok false => .err .notChaindata
        | .ok true => .ok ((tokens.take (tokens.length - 2)).flatMap fun t => t ++ [0x2f])

end Silkworm
