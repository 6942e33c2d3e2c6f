import Verif.Rlp.Model

/-!
# Model of core/silkworm/types/account.{hpp,cpp}
-/

namespace Silkworm

open Rlp

/-- core/silkworm/common/base.hpp:46 (`kEmptyHash`): Keccak-256 of the empty string. -/
def kEmptyHash : Bytes := beFixed 32 0xc5d2460186f7233c927e7db2dcc703c0e500b653ca82273b7bfad8045d85a470

/-- core/silkworm/common/base.hpp:49 (`kEmptyListHash`). -/
def kEmptyListHash : Bytes := beFixed 32 0x1dcc4de8dec75d7aab85b567b6ccd41ad312451b948a7413f0a142fd40d49347

/-- core/silkworm/common/base.hpp:52 (`kEmptyRoot`). -/
def kEmptyRoot : Bytes := beFixed 32 0x56e81f171bcc55a6ff8345e692c0f86e5b48e01b996cadc001622fb5e363b421

/-- core/silkworm/types/account.hpp:32-45 (`Account`). -/
structure Account where
  nonce : Nat := 0
  balance : Nat := 0
  codeHash : Bytes := kEmptyHash
  incarnation : Nat := 0
  deriving DecidableEq, Repr

/-- core/silkworm/types/account.cpp:33-35, 40-42, 47-49: a length byte and the big-endian digits. -/
def storageField (be : Bytes) : Bytes := UInt8.ofNat be.length :: be

/-- core/silkworm/types/account.cpp:27-60 (`Account::encode_for_storage`); `field_set` is a sum of distinct bits. -/
def Account.encodeForStorage (a : Account) (omitCodeHash : Bool := false) : Bytes :=
  UInt8.ofNat
      ((if a.nonce ≠ 0 then 1 else 0) + (if a.balance ≠ 0 then 2 else 0) + (if a.incarnation ≠ 0 then 4 else 0) +
       (if a.codeHash ≠ kEmptyHash ∧ omitCodeHash = false then 8 else 0)) ::
    ((if a.nonce ≠ 0 then storageField (bigEndian 8 a.nonce) else []) ++
     (if a.balance ≠ 0 then storageField (bigEndian 32 a.balance) else []) ++
     (if a.incarnation ≠ 0 then storageField (bigEndian 8 a.incarnation) else []) ++
     (if a.codeHash ≠ kEmptyHash ∧ omitCodeHash = false then UInt8.ofNat 32 :: a.codeHash else []))

/-- core/silkworm/types/account.cpp:62-85 (`Account::encoding_length_for_storage`). -/
def Account.encodingLengthForStorage (a : Account) : Nat :=
  1 + (if a.nonce ≠ 0 then 1 + (bigEndian 8 a.nonce).length else 0) +
    (if a.balance ≠ 0 then 1 + (bigEndian 32 a.balance).length else 0) +
    (if a.incarnation ≠ 0 then 1 + (bigEndian 8 a.incarnation).length else 0) +
    (if a.codeHash ≠ kEmptyHash then 1 + 32 else 0)

/-- `field_set & mask`. -/
def hasField (fieldSet : UInt8) (mask : UInt8) : Bool := (fieldSet &&& mask) != 0

/-- core/silkworm/types/account.cpp:92, 95: skip a field, where `encoded[pos]` is unchecked. The position is
represented by the remaining bytes; past the end they are empty, and the next read is undefined either way. -/
def skipField (present : Bool) (rest : Bytes) : Dec Bytes :=
  if present then do
    let len ← byteAt rest 0
    .ok ((rest.drop 1).drop len.toNat)
  else .ok rest

/-- core/silkworm/types/account.cpp:87-103 (`extract_incarnation`). -/
def extractIncarnation (encoded : Bytes) : Dec Nat := do
  let fieldSet ← byteAt encoded 0
  let rest := encoded.drop 1
  let rest ← skipField (hasField fieldSet 1) rest
  let rest ← skipField (hasField fieldSet 2) rest
  if hasField fieldSet 4 then do
    let len ← byteAt rest 0
    readUint 8 ((rest.drop 1).take len.toNat)
  else .ok 0

/-- core/silkworm/types/account.cpp:114-125 and 137-148: an integer field. -/
def decodeField (present : Bool) (rest : Bytes) : Dec (Nat × Bytes) :=
  if present then do
    let len ← byteAt rest 0
    let rest := rest.drop 1
    if rest.length < len.toNat then .err .inputTooShort
    else do
      let n ← readUint 8 (rest.take len.toNat)
      .ok (n, rest.drop len.toNat)
  else .ok (0, rest)

/-- core/silkworm/types/account.cpp:127-135: the balance. `memcpy` to offset `32 - len` of the balance writes out of
bounds when `len > 32`; `&encoded[pos]` violates the precondition of `operator[]` when nothing is left. -/
def decodeBalanceField (present : Bool) (rest : Bytes) : Dec (Nat × Bytes) :=
  if present then do
    let len ← byteAt rest 0
    let rest := rest.drop 1
    if rest.length < len.toNat then .err .inputTooShort
    else if len.toNat > 32 then .ub
    else do
      let _ ← byteAt rest 0
      .ok (beToNat (List.replicate (32 - len.toNat) 0 ++ rest.take len.toNat), rest.drop len.toNat)
  else .ok (0, rest)

/-- core/silkworm/types/account.cpp:150-159: the code hash. -/
def decodeCodeHashField (present : Bool) (rest : Bytes) : Dec Bytes :=
  if present then do
    let len ← byteAt rest 0
    let rest := rest.drop 1
    if len.toNat ≠ 32 then .err .unexpectedLength
    else if rest.length < len.toNat then .err .inputTooShort
    else .ok (rest.take 32)
  else .ok kEmptyHash

/-- core/silkworm/types/account.cpp:105-162 (`decode_account_from_storage`). -/
def decodeAccountFromStorage (encoded : Bytes) : Dec Account :=
  match encoded with
  | [] => .ok {}
  | fieldSet :: rest => do
    let (nonce, rest) ← decodeField (hasField fieldSet 1) rest
    let (balance, rest) ← decodeBalanceField (hasField fieldSet 2) rest
    let (incarnation, rest) ← decodeField (hasField fieldSet 4) rest
    let codeHash ← decodeCodeHashField (hasField fieldSet 8) rest
    .ok ⟨nonce, balance, codeHash, incarnation⟩

/-- core/silkworm/types/account.cpp:164-180 (`Account::rlp`). -/
def Account.rlp (a : Account) (storageRoot : Bytes) : Bytes :=
  encodeHeader ⟨true, lengthUint 8 a.nonce + lengthUint 32 a.balance + (32 + 1) + (32 + 1)⟩ ++
  encodeUint 8 a.nonce ++ encodeUint 32 a.balance ++ encodeArray storageRoot ++ encodeArray a.codeHash

end Silkworm
