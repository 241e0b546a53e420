import Verif.Common
import Verif.Endian.Model
/-!
Model of the authentication centre part of libosmogsm:
`src/gsm/milenage/milenage.c`, `src/gsm/auth_milenage.c`, `src/gsm/auth_core.c`,
`src/gsm/auth_xor.c` and `src/gsm/auth_xor_2g.c`.

The AES block cipher is a parameter `E key block` (any function); every theorem
holds for whatever it computes.  What `aes_128_encrypt_block` can do besides
computing is fail for lack of memory; which calls fail is a parameter too.
Byte strings are lists, fixed buffers lists of the length of the buffer.
-/
namespace Verif.Auth
open Verif.Endian (storeBeExt loadBeExt)

/-- The block cipher: key and block of 16 bytes to a block of 16 bytes. -/
abbrev Cipher := List Byte → List Byte → List Byte

/-- Which of the cipher calls of one function fail (`aes_encrypt_init` without
memory), numbered as they stand in the text of the function. -/
abbrev Faults := Nat → Bool

/-- milenage/aes-encblock.c:31-40 `aes_128_encrypt_block`; `none` is -1. -/
def aes (E : Cipher) (fail : Bool) (k b : List Byte) : Option (List Byte) :=
  if fail then none else some (E k b)

/-- `for (i = 0; i < n; i++) out[i] = a[i] ^ b[i]` (auth_xor.c:36-42, and the
loops of milenage.c:52-53,68-69,75-76,104-105). -/
def xorN (a b : List Byte) (n : Nat) : List Byte :=
  (List.range n).map fun i => a.getD i 0#8 ^^^ b.getD i 0#8

/-- milenage.c:65-66,132-133,144-145,156-157: `for (i = 0; i < 16; i++)
out[(i + sh) % 16] = src[i]` into a buffer of 16 bytes. -/
def scatter (sh : Nat) (src : List Byte) : List Byte :=
  (List.range 16).foldl (fun out i => out.set ((i + sh) % 16) (src.getD i 0#8)) (List.replicate 16 0#8)

/-- milenage.c:118,134,146,158: `tmp1[15] ^= c`. -/
def xor15 (c : Byte) (t : List Byte) : List Byte := t.set 15 (t.getD 15 0#8 ^^^ c)

/-- The C library's `memcmp` of two buffers of the same length: the difference
of the first two bytes that differ. -/
def memcmp : List Byte → List Byte → Int
  | a :: as, b :: bs => if a = b then memcmp as bs else (a.toNat : Int) - b.toNat
  | _, _ => 0

/-- milenage.c:45-82 `milenage_f1`: the 16 bytes MAC-A and MAC-S come from;
`none` is -1 with nothing written. -/
def milenageF1 (E : Cipher) (flt : Faults) (opc k rand sqn amf : List Byte) :
    Option (List Byte × List Byte) := do
  let tmp1 ← aes E (flt 0) k (xorN rand opc 16)
  let half := sqn.take 6 ++ amf.take 2
  let tmp2 := half ++ half
  let tmp3 := scatter 8 (xorN tmp2 opc 16)
  let tmp3 := xorN tmp3 tmp1 16
  let tmp1 ← aes E (flt 1) k tmp3
  let tmp1 := xorN tmp1 opc 16
  some (tmp1.take 8, (tmp1.drop 8).take 8)

/-- The buffers `milenage_f2345` writes to (milenage.c:97-98).  `res` may be
longer than the 8 bytes written. -/
structure Out where
  res : List Byte
  ck : List Byte
  ik : List Byte
  ak : List Byte
  akstar : List Byte
deriving DecidableEq

/-- Which of the output pointers are not NULL. -/
structure Want where
  res : Bool
  ck : Bool
  ik : Bool
  ak : Bool
  akstar : Bool

/-- milenage.c:114-127: the part of `milenage_f2345` for f2 and f5. -/
def f2f5 (E : Cipher) (flt : Faults) (opc k tmp2 : List Byte) (w : Want) (o : Out) : Bool × Out :=
  match aes E (flt 1) k (xor15 1#8 (xorN tmp2 opc 16)) with
  | none => (false, o)
  | some t =>
    let t := xorN t opc 16
    let o := if w.res then { o with res := (t.drop 8).take 8 ++ o.res.drop 8 } else o
    let o := if w.ak then { o with ak := t.take 6 } else o
    (true, o)

/-- milenage.c:129-139: the part for f3. -/
def f3 (E : Cipher) (flt : Faults) (opc k tmp2 : List Byte) (w : Want) (o : Out) : Bool × Out :=
  if w.ck then
    match aes E (flt 2) k (xor15 2#8 (scatter 12 (xorN tmp2 opc 16))) with
    | none => (false, o)
    | some t => (true, { o with ck := xorN t opc 16 })
  else (true, o)

/-- milenage.c:141-151: the part for f4. -/
def f4 (E : Cipher) (flt : Faults) (opc k tmp2 : List Byte) (w : Want) (o : Out) : Bool × Out :=
  if w.ik then
    match aes E (flt 3) k (xor15 4#8 (scatter 8 (xorN tmp2 opc 16))) with
    | none => (false, o)
    | some t => (true, { o with ik := xorN t opc 16 })
  else (true, o)

/-- milenage.c:153-163: the part for f5*. -/
def f5star (E : Cipher) (flt : Faults) (opc k tmp2 : List Byte) (w : Want) (o : Out) : Bool × Out :=
  if w.akstar then
    match aes E (flt 4) k (xor15 8#8 (scatter 4 (xorN tmp2 opc 16))) with
    | none => (false, o)
    | some t => (true, { o with akstar := xorN t opc 6 })
  else (true, o)

/-- milenage.c:97-166 `milenage_f2345`: success and the buffers after it. -/
def milenageF2345 (E : Cipher) (flt : Faults) (opc k rand : List Byte) (w : Want) (o : Out) :
    Bool × Out :=
  match aes E (flt 0) k (xorN rand opc 16) with
  | none => (false, o)
  | some tmp2 =>
    let r := f2f5 E flt opc k tmp2 w o
    if !r.1 then r else
    let r := f3 E flt opc k tmp2 w r.2
    if !r.1 then r else
    let r := f4 E flt opc k tmp2 w r.2
    if !r.1 then r else
    f5star E flt opc k tmp2 w r.2

/-- include/osmocom/crypt/auth.h:89-99 `struct osmo_auth_vector`. -/
structure Vec where
  rand : List Byte
  autn : List Byte
  ck : List Byte
  ik : List Byte
  res : List Byte
  resLen : Nat
  kc : List Byte
  sres : List Byte
  authTypes : Nat
deriving DecidableEq

/-- auth.h:16-20 `enum osmo_sub_auth_type`. -/
inductive AuthType | none | gsm | umts
deriving DecidableEq, Repr

/-- auth.h:44-65 `struct osmo_sub_auth_data2`.  The member of the union for GSM
is a field of its own. -/
structure Aud where
  type : AuthType
  opc : List Byte
  opcLen : Nat
  k : List Byte
  kLen : Nat
  amf : List Byte
  sqn : BitVec 64
  opcIsOp : Bool
  indBitlen : Nat
  ind : BitVec 32
  sqnMs : BitVec 64
  ki : List Byte
deriving DecidableEq

/-- milenage.c:182-205 `milenage_generate` on the buffers of a vector; also the
value `*res_len` is left with. -/
def milenageGenerate (E : Cipher) (flt1 flt2 : Faults) (opc amf k sqn rand : List Byte)
    (resLen : Nat) (v : Vec) : Vec × Nat :=
  if resLen < 8 then (v, 0) else
  match milenageF1 E flt1 opc k rand sqn amf with
  | none => (v, 0)
  | some (macA, _) =>
    let r := milenageF2345 E flt2 opc k rand ⟨true, true, true, true, false⟩
      ⟨v.res, v.ck, v.ik, List.replicate 6 0#8, []⟩
    let v := { v with res := r.2.res, ck := r.2.ck, ik := r.2.ik }
    if !r.1 then (v, 0) else
    ({ v with autn := xorN sqn r.2.ak 6 ++ amf.take 2 ++ macA }, 8)

/-- milenage.c:217-232 `milenage_auts`: the SQN written on success; `none` is -1. -/
def milenageAuts (E : Cipher) (flt1 flt2 : Faults) (opc k rand auts : List Byte) :
    Option (List Byte) :=
  let r := milenageF2345 E flt2 opc k rand ⟨false, false, false, false, true⟩
    ⟨[], [], [], [], List.replicate 6 0#8⟩
  if !r.1 then none else
  let sqn := xorN auts r.2.akstar 6
  match milenageF1 E flt1 opc k rand sqn [0#8, 0#8] with
  | none => none
  | some (_, macS) => if memcmp macS ((auts.drop 6).take 8) ≠ 0 then none else some sqn

/-- auth_core.c:360-365 `osmo_auth_c3`. -/
def c3 (ck ik : List Byte) : List Byte :=
  (List.range 8).map fun i =>
    ck.getD i 0#8 ^^^ ck.getD (i + 8) 0#8 ^^^ ik.getD i 0#8 ^^^ ik.getD (i + 8) 0#8

/-- auth_core.c:373-394 `osmo_auth_c2`; `none` is a failing assertion
(lines 377,378). -/
def c2 (res : List Byte) (resLen : Nat) (func : Nat) : Option (List Byte) :=
  if ¬ (func = 1 ∨ func = 2) then none else
  if ¬ resLen ≤ 16 then none else
  let xres := res.take resLen ++ List.replicate (16 - resLen) 0#8
  if func = 1 then
    some ((List.range 4).map fun i =>
      xres.getD i 0#8 ^^^ xres.getD (4 + i) 0#8 ^^^ xres.getD (8 + i) 0#8 ^^^ xres.getD (12 + i) 0#8)
  else some (xres.take 4)

/-- auth_core.c:139-143 `osmo_c4`. -/
def c4 (kc : List Byte) : List Byte := kc.take 8 ++ kc.take 8

/-- auth_core.c:127-136 `c5_function`. -/
def c5 (kc : List Byte) : List Byte :=
  let ik := (List.range 4).map fun i => kc.getD i 0#8 ^^^ kc.getD (i + 4) 0#8
  let ik := ik ++ kc.take 8
  ik ++ (List.range 4).map fun i => ik.getD i 0#8

/-- auth_core.c:153-167 `osmo_auth_3g_from_2g`; `auth_types` bits 1 (GSM) and 2
(UMTS), auth.h:18-19. -/
def auth3gFrom2g (v : Vec) : Bool × Vec :=
  if v.authTypes.testBit 0 && !v.authTypes.testBit 1 then
    (true, { v with ik := c5 v.kc, ck := c4 v.kc })
  else (false, v)

/-- milenage.c:244-255 `gsm_milenage`: SRES and Kc. -/
def gsmMilenage (E : Cipher) (flt : Faults) (opc k rand : List Byte) :
    Option (List Byte × List Byte) :=
  let r := milenageF2345 E flt opc k rand ⟨true, true, true, false, false⟩
    ⟨List.replicate 8 0#8, List.replicate 16 0#8, List.replicate 16 0#8, [], []⟩
  if !r.1 then none else
  match c2 r.2.res 8 1 with
  | none => none
  | some sres => some (sres, c3 r.2.ck r.2.ik)

/-- What `milenage_check` returns and writes (milenage.c:258-271). -/
structure CheckOut where
  rc : Int
  res : List Byte
  ck : List Byte
  ik : List Byte
  auts : List Byte
deriving DecidableEq

/-- milenage.c:272-325 `milenage_check` (the side of the USIM); buffers that are
not written hold zeroes.  The failures of the cipher are those of the first
f2345 (`flt`), of the second (`fltS`) and of f1 (`flt1`). -/
def milenageCheck (E : Cipher) (flt fltS flt1 : Faults) (opc k sqn rand autn : List Byte) :
    CheckOut :=
  let r := milenageF2345 E flt opc k rand ⟨true, true, true, true, false⟩
    ⟨List.replicate 8 0#8, List.replicate 16 0#8, List.replicate 16 0#8, List.replicate 6 0#8, []⟩
  let out (rc : Int) (auts : List Byte) : CheckOut := ⟨rc, r.2.res, r.2.ck, r.2.ik, auts⟩
  if !r.1 then out (-1) (List.replicate 14 0#8) else
  let rxSqn := xorN autn r.2.ak 6
  if memcmp rxSqn sqn ≤ 0 then
    let s := milenageF2345 E fltS opc k rand ⟨false, false, false, false, true⟩
      ⟨[], [], [], [], r.2.ak⟩
    if !s.1 then out (-1) (List.replicate 14 0#8) else
    let head := xorN sqn s.2.akstar 6
    match milenageF1 E flt1 opc k rand sqn [0#8, 0#8] with
    | none => out (-1) (head ++ List.replicate 8 0#8)
    | some (_, macS) => out (-2) (head ++ macS)
  else
    match milenageF1 E flt1 opc k rand rxSqn ((autn.drop 6).take 2) with
    | none => out (-1) (List.replicate 14 0#8)
    | some (macA, _) =>
      if memcmp macA ((autn.drop 8).take 8) ≠ 0 then out (-1) (List.replicate 14 0#8)
      else out 0 (List.replicate 14 0#8)

/-- milenage.c:327-340 `milenage_opc_gen`. -/
def milenageOpcGen (E : Cipher) (fail : Bool) (k op : List Byte) : Option (List Byte) := do
  let t ← aes E fail k op
  some (xorN t op 16)

/-- auth_milenage.c:32-44 `gen_opc_if_needed`; `none` is NULL. -/
def genOpcIfNeeded (E : Cipher) (fail : Bool) (a : Aud) : Option (List Byte) :=
  if a.type = AuthType.umts ∧ a.opcIsOp then milenageOpcGen E fail (a.k.take 16) (a.opc.take 16)
  else some (a.opc.take 16)

/-- auth_milenage.c:122-133 (and auth_tuak.c:133-144): the next SQN, or the
error for a bad IND. -/
def nextSqn (a : Aud) : Except Int (BitVec 64) :=
  if a.indBitlen > 28 then .error (-2) else
  let seq1 : BitVec 64 := 1#64 <<< a.indBitlen
  let indMask := ~~~(seq1 - 1#64)
  if a.ind.setWidth 64 ≥ seq1 then .error (-3) else
  .ok (((a.sqn + seq1) &&& indMask) + a.ind.setWidth 64)

/-- bitXXgen.h.tpl `osmo_store64be_ext(x, p, 6)`. -/
def store6 (x : BitVec 64) : List Byte := (storeBeExt x 6).getD []

/-- bitXXgen.h.tpl `osmo_load64be_ext(p, 6) >> 16`. -/
def load6 (p : List Byte) : BitVec 64 := ((loadBeExt 64 p 6).getD 0#64) >>> 16

/-- The cipher failures during the generation of a vector. -/
structure GenFaults where
  opc : Bool
  f1 : Faults
  f2 : Faults

/-- No call of the cipher fails. -/
def noFaults : GenFaults := ⟨false, fun _ => false, fun _ => false⟩

/-- What the functions generating a vector return: code, vector, key data. -/
abbrev Gen := Int × Vec × Aud

/-- auth_milenage.c:46-149 `milenage_gen_vec`; -22 is `-EINVAL`.
`sizeof(vec->res)` is 16 (line 50). -/
def milenageGenVec (E : Cipher) (flt : GenFaults) (v : Vec) (a : Aud) (rand : List Byte) : Gen :=
  if a.kLen ≠ 16 then (-22, v, a) else
  if a.opcLen ≠ 16 then (-22, v, a) else
  if v.resLen ≠ 4 ∧ v.resLen ≠ 8 then (-22, v, a) else
  match genOpcIfNeeded E flt.opc a with
  | none => (-1, v, a)
  | some opc =>
    match nextSqn a with
    | .error e => (e, v, a)
    | .ok next =>
      let (v, _) := milenageGenerate E flt.f1 flt.f2 opc a.amf (a.k.take 16) (store6 next) rand 16 v
      let v := { v with kc := c3 v.ck v.ik, sres := (c2 v.res v.resLen 1).getD [], authTypes := 3 }
      (0, v, { a with sqn := next })

/-- auth_milenage.c:151-180 `milenage_gen_vec_auts`; `none` is the access
through the NULL pointer that `gen_opc_if_needed` returned (line 168 does not
check for it). -/
def milenageGenVecAuts (E : Cipher) (fltA flt : GenFaults) (v : Vec) (a : Aud)
    (auts randAuts rand : List Byte) : Option Gen :=
  if a.kLen ≠ 16 then some (-22, v, a) else
  if a.opcLen ≠ 16 then some (-22, v, a) else
  match genOpcIfNeeded E fltA.opc a with
  | none => none
  | some opc =>
    match milenageAuts E fltA.f1 fltA.f2 opc (a.k.take 16) randAuts auts with
    | none => some (-1, v, a)
    | some sqn =>
      let a := { a with sqnMs := load6 sqn, sqn := load6 sqn }
      some (milenageGenVec E flt v a rand)

/-- auth_core.c:186-203 `osmo_auth_gen_vec2` with the implementation selected
for the algorithm (`none`: none is, -2 is `-ENOENT`). -/
def osmoAuthGenVec2 (impl : Option (Vec → Aud → List Byte → Gen)) (v : Vec) (a : Aud)
    (rand : List Byte) : Gen :=
  match impl with
  | none => (-2, v, a)
  | some g =>
    let (rc, v, a) := g v a rand
    if rc < 0 then (rc, v, a) else (0, { v with rand := rand.take 16 }, a)

/-- auth_core.c:261-279 `osmo_auth_gen_vec_auts2`. -/
def osmoAuthGenVecAuts2
    (impl : Option (Vec → Aud → List Byte → List Byte → List Byte → Option Gen)) (v : Vec) (a : Aud)
    (auts randAuts rand : List Byte) : Option Gen :=
  match impl with
  | none => some (-2, v, a)
  | some g => do
    let (rc, v, a) ← g v a auts randAuts rand
    some (if rc < 0 then (rc, v, a) else (0, { v with rand := rand.take 16 }, a))

/-- auth_xor.c:45-128 `xor_gen_vec`; -95 is `-ENOTSUP`. -/
def xorGenVec (v : Vec) (a : Aud) (rand : List Byte) : Gen :=
  match a.type with
  | .none => (-95, v, a)
  | t =>
    if t = .umts ∧ a.kLen ≠ 16 then (-22, v, a) else
    let xdout := xorN (if t = .gsm then a.ki else a.k) rand 16
    let v := { v with res := xdout, resLen := 16 }
    let v := { v with ck := xdout.drop 1 ++ xdout.take 1 }
    let v := { v with ik := xdout.drop 2 ++ xdout.take 2 }
    let sres := (List.range 4).map fun i => v.res.getD i 0#8 ^^^ v.res.getD (i + 4) 0#8 ^^^
        (v.res.getD (i + 8) 0#8 ^^^ v.res.getD (i + 12) 0#8)
    let v := { v with sres := sres, kc := c3 v.ck v.ik }
    if t = .gsm then (0, { v with authTypes := 1 }, a) else
    let ak := (xdout.drop 3).take 6
    let cdout := store6 a.sqn ++ a.amf.take 2
    let xmac := xorN xdout cdout 8
    (0, { v with autn := xorN cdout ak 6 ++ a.amf.take 2 ++ xmac, authTypes := 3 }, a)

/-- auth_xor.c:131-176 `xor_gen_vec_auts`.  `rand_auts` is not looked at. -/
def xorGenVecAuts (v : Vec) (a : Aud) (auts _randAuts rand : List Byte) : Option Gen :=
  match a.type with
  | .none => some (-95, v, a)
  | t =>
    if t = .umts ∧ a.kLen ≠ 16 then some (-22, v, a) else
    let xdout := xorN (if t = .gsm then a.ki else a.k) rand 16
    let ak := (xdout.drop 3).take 6
    let sqnms := xorN auts ak 6
    let xmac := xorN xdout (sqnms ++ [0#8, 0#8]) 8
    if memcmp ((auts.drop 6).take 8) xmac ≠ 0 then some (-1, v, a) else
    some (xorGenVec v { a with sqnMs := load6 sqnms, sqn := load6 sqnms } rand)

/-- auth_xor_2g.c:45-67 `xor2g_gen_vec`. -/
def xor2gGenVec (v : Vec) (a : Aud) (rand : List Byte) : Gen :=
  if a.type ≠ .gsm then (-95, v, a) else
  let res1 := xorN a.ki rand 16
  (0, { v with sres := res1.take 4, kc := (res1.drop 4).take 8, authTypes := 1 }, a)

end Verif.Auth
