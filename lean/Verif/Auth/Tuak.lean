import Verif.Auth.Model
import Verif.Auth.Keccak
/-!
Model of `src/gsm/tuak/tuak.c` and `src/gsm/auth_tuak.c`.

The permutation of the 200 byte buffer is a parameter `F`; `keccakBytes` is the
one of the library.  The number of iterations (`g_keccak_iterations`, 1 unless
`tuak_set_keccak_iterations` was called) is a parameter too.
-/
namespace Verif.Auth

/-- A lane from 8 bytes, on a little endian machine (`(uint64_t *) buf`,
tuak.c:75; on a big endian machine the same cast gives other lanes and the
results of TUAK differ, which is not modelled). -/
def laneOf (b : List Byte) : Lane :=
  BitVec.ofNat 64 ((List.range 8).foldr (fun i acc => (b.getD i 0#8).toNat + 256 * acc) 0)

/-- The 8 bytes of a lane, on a little endian machine. -/
def bytesOf (l : Lane) : List Byte := (List.range 8).map fun i => BitVec.ofNat 8 (l.toNat / 256 ^ i)

/-- tuak.c:75: `Keccak_f_64((uint64_t *) buf)`. -/
def keccakBytes (buf : List Byte) : List Byte :=
  (keccakF64 ((List.range 25).map fun i => laneOf ((buf.drop (8 * i)).take 8))).flatMap bytesOf

/-- The transformation of the buffer. -/
abbrev Perm := List Byte → List Byte

/-- tuak.c:42-45 `PUSH_DATA`: the first `n` bytes of the input, last one first. -/
def push (input : List Byte) (n : Nat) : List Byte :=
  (List.range n).map fun i => input.getD (n - 1 - i) 0#8

/-- tuak.c:33 `algoname`, "TUAK1.0". -/
def algoName : List Byte := [0x54#8, 0x55#8, 0x41#8, 0x4b#8, 0x31#8, 0x2e#8, 0x30#8]

/-- tuak.c:48-52 `memcpy_reverse`: the `n` bytes of `src`, last one first. -/
def revCopy (src : List Byte) (n : Nat) : List Byte :=
  (List.range n).map fun i => src.getD (n - i - 1) 0#8

/-- tuak.c:54-72: the buffer before the permutation. -/
def tuakBuf (opc : List Byte) (inst : Byte) (rand amf sqn k : List Byte) (kLen : Nat) : List Byte :=
  push opc 32 ++ [inst] ++ push algoName 7 ++ push rand 16 ++ push amf 2 ++ push sqn 6 ++
  push k kLen ++ List.replicate (32 - kLen) 0#8 ++ [0x1f#8] ++ List.replicate 38 0#8 ++ [0x80#8] ++
  List.replicate 64 0#8

/-- tuak.c:54-76 `tuak_core`. -/
def tuakCore (F : Perm) (iters : Nat) (opc : List Byte) (inst : Byte) (rand amf sqn k : List Byte)
    (kLen : Nat) : List Byte :=
  (List.range iters).foldl (fun buf _ => F buf) (tuakBuf opc inst rand amf sqn k kLen)

/-- tuak.c:34 `zero16`. -/
def zero16 : List Byte := List.replicate 16 0#8

/-- tuak.c:95-107 (and 143-155): the instance bits of the MAC length. -/
def instMac : Nat → Option Byte
  | 8 => some 0x08#8
  | 16 => some 0x10#8
  | 32 => some 0x20#8
  | _ => none

/-- tuak.c:109-117 (and 157-165, 229-237): the instance bit of the key length. -/
def instKey : Nat → Option Byte
  | 16 => some 0#8
  | 32 => some 0x01#8
  | _ => none

/-- tuak.c:88-124 `tuak_f1`; `none` is `-EINVAL`. -/
def tuakF1 (F : Perm) (iters : Nat) (opc k : List Byte) (kLen : Nat) (rand sqn amf : List Byte)
    (macLen : Nat) : Option (List Byte) := do
  let m ← instMac macLen
  let i ← instKey kLen
  let buf := tuakCore F iters opc (0#8 ||| m ||| i) rand amf sqn k kLen
  some (revCopy buf macLen)

/-- tuak.c:136-172 `tuak_f1star`. -/
def tuakF1star (F : Perm) (iters : Nat) (opc k : List Byte) (kLen : Nat) (rand sqn amf : List Byte)
    (macLen : Nat) : Option (List Byte) := do
  let m ← instMac macLen
  let i ← instKey kLen
  let buf := tuakCore F iters opc (0x80#8 ||| m ||| i) rand amf sqn k kLen
  some (revCopy buf macLen)

/-- tuak.c:193-207: the instance bits of the RES length. -/
def instRes : Nat → Option Byte
  | 4 => some 0#8
  | 8 => some 0x08#8
  | 16 => some 0x10#8
  | 32 => some 0x20#8
  | _ => none

/-- tuak.c:209-217: the instance bit of the CK length. -/
def instCk : Nat → Option Byte
  | 16 => some 0#8
  | 32 => some 0x04#8
  | _ => none

/-- tuak.c:219-227: the instance bit of the IK length. -/
def instIk : Nat → Option Byte
  | 16 => some 0#8
  | 32 => some 0x02#8
  | _ => none

/-- tuak.c:185-254 `tuak_f2345` with no NULL pointer: RES, CK, IK, AK. -/
def tuakF2345 (F : Perm) (iters : Nat) (opc k : List Byte) (kLen : Nat) (rand : List Byte)
    (resLen ckLen ikLen : Nat) : Option (List Byte × List Byte × List Byte × List Byte) := do
  let r ← instRes resLen
  let c ← instCk ckLen
  let ii ← instIk ikLen
  let i ← instKey kLen
  let buf := tuakCore F iters opc (0x40#8 ||| r ||| c ||| ii ||| i) rand zero16 zero16 k kLen
  some (revCopy buf resLen, revCopy (buf.drop 32) ckLen, revCopy (buf.drop 64) ikLen,
    revCopy (buf.drop 96) 6)

/-- tuak.c:264-285 `tuak_f5star`. -/
def tuakF5star (F : Perm) (iters : Nat) (opc k : List Byte) (kLen : Nat) (rand : List Byte) :
    Option (List Byte) := do
  let i ← instKey kLen
  let buf := tuakCore F iters opc (0xc0#8 + i) rand zero16 zero16 k kLen
  some (revCopy (buf.drop 96) 6)

/-- tuak.c:300-322 `tuak_generate` on the buffers of a vector.  (`*res_len` is
not looked at afterwards.) -/
def tuakGenerate (F : Perm) (iters : Nat) (opc amf k : List Byte) (kLen : Nat) (sqn rand : List Byte)
    (resLen : Nat) (v : Vec) : Vec :=
  if resLen < 4 then v else
  match tuakF1 F iters opc k kLen rand sqn amf 8 with
  | none => v
  | some macA =>
    match tuakF2345 F iters opc k kLen rand resLen 16 16 with
    | none => v
    | some (res, ck, ik, ak) =>
      let v := { v with res := res ++ v.res.drop resLen, ck := ck, ik := ik }
      { v with autn := xorN sqn ak 6 ++ amf.take 2 ++ macA }

/-- tuak.c:334-349 `tuak_auts`. -/
def tuakAuts (F : Perm) (iters : Nat) (opc k : List Byte) (kLen : Nat) (rand auts : List Byte) :
    Option (List Byte) :=
  match tuakF5star F iters opc k kLen rand with
  | none => none
  | some ak =>
    let sqn := xorN auts ak 6
    match tuakF1star F iters opc k kLen rand sqn [0#8, 0#8] 8 with
    | none => none
    | some macS => if memcmp macS ((auts.drop 6).take 8) ≠ 0 then none else some sqn

/-- tuak.c:351-372 `tuak_opc_gen`. -/
def tuakOpcGen (F : Perm) (iters : Nat) (k : List Byte) (kLen : Nat) (op : List Byte) :
    Option (List Byte) := do
  let i ← instKey kLen
  let buf := tuakCore F iters op i zero16 zero16 zero16 k kLen
  some (revCopy buf 32)

/-- auth_tuak.c:35-48 `gen_opc_if_needed`. -/
def tuakOpcIfNeeded (F : Perm) (iters : Nat) (a : Aud) : Option (List Byte) :=
  if a.type = AuthType.umts ∧ a.opcIsOp then tuakOpcGen F iters a.k a.kLen a.opc else some a.opc

/-- auth_tuak.c:50-161 `tuak_gen_vec`. -/
def tuakGenVec (F : Perm) (iters : Nat) (v : Vec) (a : Aud) (rand : List Byte) : Gen :=
  if v.resLen ≠ 4 ∧ v.resLen ≠ 8 ∧ v.resLen ≠ 16 then (-22, v, a) else
  if a.kLen ≠ 16 ∧ a.kLen ≠ 32 then (-22, v, a) else
  if a.opcLen ≠ 32 then (-22, v, a) else
  match tuakOpcIfNeeded F iters a with
  | none => (-1, v, a)
  | some opc =>
    match nextSqn a with
    | .error e => (e, v, a)
    | .ok next =>
      let v := tuakGenerate F iters opc a.amf a.k a.kLen (store6 next) rand v.resLen v
      let v := { v with kc := c3 v.ck v.ik, sres := (c2 v.res v.resLen 1).getD [], authTypes := 3 }
      (0, v, { a with sqn := next })

/-- auth_tuak.c:163-192 `tuak_gen_vec_auts`.  Line 182 passes
`sizeof(aud->u.umts.k)`, 32, for the length of the key. -/
def tuakGenVecAuts (F : Perm) (iters : Nat) (v : Vec) (a : Aud) (auts randAuts rand : List Byte) :
    Option Gen :=
  if a.kLen ≠ 16 ∧ a.kLen ≠ 32 then some (-22, v, a) else
  if a.opcLen ≠ 32 then some (-22, v, a) else
  match tuakOpcIfNeeded F iters a with
  | none => none
  | some opc =>
    match tuakAuts F iters opc a.k 32 randAuts auts with
    | none => some (-1, v, a)
    | some sqn =>
      let a := { a with sqnMs := load6 sqn, sqn := load6 sqn }
      some (tuakGenVec F iters v a rand)

end Verif.Auth
