import Verif.Model.Persist
/-!
# Store encryption (/repo/asyncz/stores/base.py:80-122)
-/
namespace Asyncz
namespace Crypto
open Persist (Bytes)

/-- AES-CCM as an abstract authenticated cipher.  Assumed of `cryptography`'s `AESCCM`: decryption
inverts encryption under the same key and nonce, and a message made under one key is rejected under
any other key. (Cryptographically the second holds up to negligible probability.).
(used at /repo/asyncz/stores/base.py:98-122) -/
structure AEAD where
  Key : Type
  enc : Key → Bytes → Bytes → Bytes
  dec : Key → Bytes → Bytes → Option Bytes
  dec_enc : ∀ k n m, dec k n (enc k n m) = some m
  foreign : ∀ k k' n m, k ≠ k' → dec k' n (enc k n m) = none

/-- `conditional_encrypt` (base.py:110-122); `nonce` is `os.urandom(13)`. -/
def conditionalEncrypt (A : AEAD) (key : Option A.Key) (nonce inp : Bytes) : Bytes :=
  match key with
  | some k => nonce ++ A.enc k nonce inp
  | none => inp

/-- `conditional_decrypt` (base.py:97-108): `inp[:13]`, `inp[13:]`; `none` = `InvalidTag`. -/
def conditionalDecrypt (A : AEAD) (key : Option A.Key) (inp : Bytes) : Option Bytes :=
  match key with
  | some k => A.dec k (inp.take 13) (inp.drop 13)
  | none => some inp

end Crypto
end Asyncz
