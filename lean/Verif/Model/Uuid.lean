import Verif.Model.Exn
import Verif.Model.Sha1
import Verif.Model.Md5

/-!
# sprout/uuid: string_generator, to_string, name generators, random generator, variant, version

Code units are `Int`; bytes are `BitVec 8`; a uuid is the list of its 16 bytes.
The parser reads through checked `next_char` objects, so it has no undefined behaviour; it returns or throws
`std::runtime_error`. Where C++ leaves the order of two evaluations open that may both throw, both throw the same type.
-/

namespace Sprout.Uuid

/-- sequencing of calls that may throw -/
def _root_.Sprout.Ret.bind {α β : Type} : Ret α → (α → Ret β) → Ret β
  | .ret a, f => f a
  | .throw e, _ => .throw e
instance : Monad Ret where
  pure := .ret
  bind := Ret.bind

abbrev Bytes := List (BitVec 8)

/-- `detail::digits`: "0123456789abcdefABCDEF" (sprout/uuid/detail/table.hpp 19) -/
def digits : List Int :=
  [48, 49, 50, 51, 52, 53, 54, 55, 56, 57, 97, 98, 99, 100, 101, 102, 65, 66, 67, 68, 69, 70]
/-- `detail::values<void>::table` (table.hpp 27-28) -/
def values : List (BitVec 8) := [0, 1, 2, 3, 4, 5, 6, 7, 8, 9, 10, 11, 12, 13, 14, 15, 10, 11, 12, 13, 14, 15]
/-- `detail::dash`, `lbrace`, `rbrace` (table.hpp 20-22) -/
def dash : Int := 45
def lbrace : Int := 123
def rbrace : Int := 125

/-- `next_char` (sprout/uuid/string_generator.hpp 31-51): current character and the rest of the input -/
abbrev NC := Int × List Int
/-- `next_char(first, last)` (string_generator.hpp 40-47) -/
def nextChar : List Int → Ret NC
  | [] => .throw .runtimeError
  | c :: r => .ret (c, r)

/-- `value_at` (string_generator.hpp 53-58) -/
def valueAt (i : Nat) : Ret (BitVec 8) :=
  if i < 22 then (match values[i]? with | some v => .ret v | none => .throw .outOfRange) else .throw .runtimeError
/-- `get_value` (string_generator.hpp 59-71); `sprout::find` is C15 -/
def getValue (c : Int) : Ret (BitVec 8) := valueAt (digits.findIdx (· == c))

/-- `generate_2_2` and `generate_2_3` (string_generator.hpp 88-97): two digits, of which `nc` is at the first -/
def genByte (nc : NC) : Ret (BitVec 8 × NC) := do
  let byte ← getValue nc.1
  let nc ← nextChar nc.2
  let v ← getValue nc.1
  pure (((byte <<< 4) ||| v), nc)

/-- `generate_2` for 0 and for 1..15 arguments and the three `generate_2_1` (string_generator.hpp 98-129, 141-156):
go to the first digit of byte number `n`, passing a dash where there may be one -/
def enter (nc : NC) (hasDashes : Bool) (n : Nat) : Ret (NC × Bool) :=
  if n = 0 then pure (nc, hasDashes)
  else do
    let nc ← nextChar nc.2
    if n = 4 then
      if nc.1 = dash then do
        let nc ← nextChar nc.2
        pure (nc, true)
      else pure (nc, false)
    else if n = 6 ∨ n = 8 ∨ n = 10 then
      if hasDashes then
        if nc.1 = dash then do
          let nc ← nextChar nc.2
          pure (nc, hasDashes)
        else .throw .runtimeError
      else pure (nc, hasDashes)
    else pure (nc, hasDashes)

/-- `generate_2` (string_generator.hpp 130-156); the last argument is `16 - sizeof...(Args)` -/
def gen2 (nc : NC) (openBrace : Int) (hasDashes : Bool) (args : Bytes) : Nat → Ret Bytes
  | 0 =>
    if openBrace = 0 then pure args
    else do
      let nc ← nextChar nc.2
      if openBrace = lbrace ∧ nc.1 = rbrace then pure args else .throw .runtimeError
  | k + 1 => do
    let (nc, hasDashes) ← enter nc hasDashes args.length
    let (b, nc) ← genByte nc
    gen2 nc openBrace hasDashes (args ++ [b]) k

/-- `generate_1`, `operator()`, `make_uuid` (string_generator.hpp 157-169, 193-210) -/
def makeUuid (s : List Int) : Ret Bytes := do
  let nc ← nextChar s
  if nc.1 = lbrace then do
    let nc' ← nextChar nc.2
    gen2 nc' nc.1 false [] 16
  else gen2 nc 0 false [] 16

/-- `digits<Elem>::value[(u[i] >> 4) & 0x0F], digits<Elem>::value[(u[i]) & 0x0F]` (sprout/uuid/io.hpp 128-163) -/
def hex2 (b : BitVec 8) : Option (List Int) := do
  let h ← digits[((b >>> 4) &&& 0x0F).toNat]?
  let l ← digits[(b &&& 0x0F).toNat]?
  some [h, l]
/-- the characters of bytes `i .. i + n - 1` -/
def hexN (u : Bytes) (i : Nat) : Nat → Option (List Int)
  | 0 => some []
  | n + 1 => do
    let b ← u[i]?
    let h ← hex2 b
    let t ← hexN u (i + 1) n
    some (h ++ t)
/-- `to_string_of` (io.hpp 122-165) -/
def toString (u : Bytes) : Option (List Int) := do
  let a ← hexN u 0 4
  let b ← hexN u 4 2
  let c ← hexN u 6 2
  let d ← hexN u 8 2
  let e ← hexN u 10 6
  some (a ++ dash :: (b ++ dash :: (c ++ dash :: (d ++ dash :: e))))

/-! ### variant and version -/

inductive Variant
  | ncs | rfc4122 | microsoft | future
  deriving DecidableEq
inductive Version
  | unknown | timeBased | dceSecurity | nameMd5 | random | nameSha1
  deriving DecidableEq

/-- `uuid::variant` (sprout/uuid/uuid.hpp 220-226) -/
def variant (u : Bytes) : Option Variant := do
  let x ← u[8]?
  some (if x &&& 0x80 = 0x00 then .ncs else if x &&& 0xC0 = 0x80 then .rfc4122
    else if x &&& 0xE0 = 0xC0 then .microsoft else .future)
/-- `uuid::version` (uuid.hpp 227-235) -/
def version (u : Bytes) : Option Version := do
  let x ← u[6]?
  some (if x &&& 0xF0 = 0x10 then .timeBased else if x &&& 0xF0 = 0x20 then .dceSecurity
    else if x &&& 0xF0 = 0x30 then .nameMd5 else if x &&& 0xF0 = 0x40 then .random
    else if x &&& 0xF0 = 0x50 then .nameSha1 else .unknown)
/-- `uuid::is_nil` (uuid.hpp 29-35, 217-219) -/
def isNil (u : Bytes) : Bool := u.all (· == 0)

/-- `sha_to_uuid_1` with the masks of the SHA-1 generator (sprout/uuid/sha1_name_generator.hpp 30-49) and of the
MD5 generator (md5_name_generator.hpp 30-49): 16 bytes of the digest, bytes 6 and 8 masked -/
def digestToUuid (m6 o6 : BitVec 8) (v : Bytes) : Option Bytes := do
  let x6 ← v[6]?
  let x8 ← v[8]?
  if v.length < 16 then none
  else some (v.take 6 ++ (x6 &&& m6 ||| o6) :: ((v.drop 7).take 1 ++ (x8 &&& 0xBF ||| 0x80) :: (v.drop 9).take 7))
def sha1ToUuid := digestToUuid 0x5F 0x50
def md5ToUuid := digestToUuid 0x3F 0x30

/-- `make_uuid5(namespace_uuid, name)` (sha1_name_generator.hpp 57-66, 107-115): the namespace is processed by the
constructor, the name by the call; default constructor: the nil uuid (54-56) -/
def makeUuid5 (ns name : Bytes) : Option Bytes := do
  let s ← Sha1.cProcessBytes Sha1.init ns
  let s ← Sha1.cProcessBytes s name
  let v ← Sha1.checksum s
  sha1ToUuid v

/-- the same with the `sha1` variant selected on Clang, whose processing functions may throw -/
def makeUuid5Clang (ns name : Bytes) : Option (Ret Bytes) := do
  match ← Sha1.Workaround.cProcessBytes Sha1.init ns with
  | .throw e => some (.throw e)
  | .ret s =>
    match ← Sha1.Workaround.cProcessBytes s name with
    | .throw e => some (.throw e)
    | .ret s => do
      let v ← Sha1.checksum s
      let u ← sha1ToUuid v
      some (.ret u)

/-- `make_uuid3(namespace_uuid, name)` (md5_name_generator.hpp 54-66, 107-115) -/
def makeUuid3 (ns name : Bytes) : Option Bytes := do
  let s ← Md5.cProcessBytes Md5.init ns
  let s ← Md5.cProcessBytes s name
  let v ← Md5.checksum s
  md5ToUuid v

/-- `random_to_uuid_1` (sprout/uuid/random_generator.hpp 37-56) -/
def randomToUuid (v0 v1 v2 v3 : BitVec 32) : Bytes :=
  let b (x : BitVec 32) (k : Nat) : BitVec 8 := ((x >>> k) &&& 0xFF).setWidth 8
  [b v0 24, b v0 16, b v0 8, b v0 0, b v1 24, b v1 16, (((v1 >>> 8) &&& 0x4F) ||| 0x40).setWidth 8, b v1 0,
   (((v2 >>> 24) &&& 0xBF) ||| 0x80).setWidth 8, b v2 16, b v2 8, b v2 0, b v3 24, b v3 16, b v3 8, b v3 0]

end Sprout.Uuid
