import Verif.Model.Misc
/-!
# Ethereum addresses and signed messages

`utils.pubkey_to_address` (`utils.py:11-18`) and the parts of `eth_utils` 1.0.3 and `eth_account`
0.2.3 that promissory notes use (`setup.py:42-44`): conversion of keys and hexadecimal text to
bytes, checksummed addresses, the hash of a signed message.
-/

namespace Verif

/-- Primitives left open: Keccak-256 and ECDSA on secp256k1 with public key recovery. -/
structure EthPrims where
  /-- `keccak_256(b)` -/
  keccak : Bytes → Bytes
  /-- `Account.signHash(hash, key)`: `(v, r, s)` -/
  ecSign : Bytes → Bytes → Res (Int × Nat × Nat)
  /-- the 64 bytes of the public key recovered by `Account.recoverHash(hash, vrs=(v, r, s))`;
  may raise -/
  ecRecover : Bytes → Val → Val → Val → Res Bytes

/-- `eth_utils.remove_0x_prefix`. -/
def strip0x (s : PStr) : PStr :=
  match s with
  | '0' :: 'x' :: rest => rest
  | '0' :: 'X' :: rest => rest
  | s => s

/-- `eth_utils.to_bytes(hexstr=s)`: an odd number of characters is padded. -/
def hexToBytes (s : PStr) : Res Bytes :=
  unhexlify (strip0x (if s.length % 2 = 1 then '0' :: 'x' :: '0' :: strip0x s else s))

/-- The check of `eth_utils.hexstr_if_str`: nothing after the prefix, or `is_hex`. -/
def hexTextOk (s : PStr) : Bool :=
  (strip0x s).all fun c => (hexVal c).isSome

/-- `eth_utils.hexstr_if_str(keccak, v)`.  Text (also a string enum member) is hexadecimal; of an
int the digits of `hex(v)`, so negative ones are an error; a bool is one byte; bytes are themselves;
anything else is a `TypeError`. -/
def keyBytes (v : Val) : Res Bytes :=
  match v with
  | .str s => if hexTextOk s then hexToBytes s else .error .valueError
  | .enum e s =>
    if e.isStringEnum then (if hexTextOk s then hexToBytes s else .error .valueError)
    else .error .typeError
  | .bool b => .ok [if b then 1 else 0]
  | .bytes b => .ok b
  | .int i => if 0 ≤ i then hexToBytes ('0' :: 'x' :: Nat.toDigits 16 i.toNat) else .error .binasciiError
  | _ => .error .typeError

/-- `c.upper()` of a hexadecimal digit. -/
def hexUp (c : Char) : Char :=
  if 97 ≤ c.toNat ∧ c.toNat ≤ 102 then Char.ofNat (c.toNat - 32) else c

/-- The ASCII bytes of a text of hexadecimal digits (`keccak(text=...)`). -/
def asciiBytes (s : PStr) : Bytes := s.map fun c => UInt8.ofNat c.toNat

/-- `eth_utils.to_checksum_address(a.hex())` for 20 bytes `a`: the lower-case digits, those
where the digit of the hash is above 7 in upper case. -/
def checksumAddress (keccak : Bytes → Bytes) (a : Bytes) : PStr :=
  '0' :: 'x' :: (hexlify a).zipWith (fun c d => if (hexVal d).getD 0 > 7 then hexUp c else c)
    (hexlify (keccak (asciiBytes (hexlify a))))

/-- `to_checksum_address(h[12:].hex())` for the hash `h` of a key; not 20 bytes: `ValueError`. -/
def hashAddress (keccak : Bytes → Bytes) (h : Bytes) : Res PStr :=
  if (h.drop 12).length = 20 then .ok (checksumAddress keccak (h.drop 12)) else .error .valueError

/-- `utils.pubkey_to_address(pubkey)` (`utils.py:11-18`). -/
def pubkeyToAddress (keccak : Bytes → Bytes) (v : Val) : Res PStr :=
  match keyBytes v with
  | .error e => .error e
  | .ok k => hashAddress keccak (keccak k)

/-- `eth_account.messages.defunct_hash_message(hexstr=s)`: the hash of
`"\x19Ethereum Signed Message:\n"`, the length in decimal, the bytes. -/
def defunctHashMessage (keccak : Bytes → Bytes) (s : PStr) : Res Bytes :=
  match hexToBytes s with
  | .error e => .error e
  | .ok b =>
    .ok (keccak (0x19 :: asciiBytes p!"Ethereum Signed Message:" ++ [10] ++
      asciiBytes (Nat.toDigits 10 b.length) ++ b))

/-- The primitives of promissory notes, from Keccak and ECDSA. `recoverHash` refuses hashes that do
not have 32 bytes and gives the checksummed address of the recovered key. -/
def EthPrims.env (P : EthPrims) : EthEnv where
  defunctHash := defunctHashMessage P.keccak
  signHash h k := if h.length = 32 then P.ecSign h k else .error .valueError
  recoverHash h v r s :=
    if h.length = 32 then
      match P.ecRecover h v r s with
      | .error e => .error e
      | .ok pk => hashAddress P.keccak (P.keccak pk)
    else .error .valueError
  address := pubkeyToAddress P.keccak

end Verif
