import Verif.Gsup.Model
import Verif.Bcd.Props
/-!
Which messages GSUP can carry.
-/
namespace Verif.Gsup

/-- a value that fits the one octet of length -/
def Blob (o : Option (List Byte)) : Prop := ∀ v, o = some v → v.length ≤ 255

/-- the octets of an optional IE -/
def ieSize : Option (List Byte) → Nat
  | none => 0
  | some v => 2 + v.length

/-- the octets of an address -/
def addrSize : Addr → Nat
  | .unspec => 0
  | .inet a => a.length
  | .inet6 a => a.length

/-- a PDP context: a non-zero identifier of one octet, and either nothing but
the identifier, or a type with the address that belongs to it, an APN, a QoS
and charging characteristics that fit 255 octets; an IPv4v6 context has no
addresses -/
structure PdpOk (p : PdpInfo) : Prop where
  ctx : 1 ≤ p.contextId ∧ p.contextId ≤ 255
  bare : p.haveInfo = false → p = { contextId := p.contextId }
  size : 3 + (if p.typeOrg = 1 then 4 + addrSize p.addr0 else 0) + ieSize p.apn + ieSize p.qos + ieSize p.charg ≤ 255
  noType : p.typeOrg ≠ 1 → p.typeOrg = 0 ∧ p.typeNr = 0 ∧ p.addr0 = .unspec
  noAddr1 : p.addr1 = .unspec
  addr : p.addr0 = .unspec ∨ (p.typeNr = 0x21 ∧ ∃ a, a.length = 4 ∧ p.addr0 = .inet a) ∨
    (p.typeNr = 0x57 ∧ ∃ a, a.length = 16 ∧ p.addr0 = .inet6 a)

/-- an authentication vector: the arrays have their sizes; what belongs to an
algorithm that the vector is not for is zero, and so is what is behind RES -/
structure VecOk (a : AuthVec) : Prop where
  rand : a.rand.length = 16
  sres : a.sres.length = 4
  kc : a.kc.length = 8
  ik : a.ik.length = 16
  ck : a.ck.length = 16
  autn : a.autn.length = 16
  resLen : a.resLen ≤ 16
  res : a.res.length = 16
  resTail : a.res.drop a.resLen = List.replicate (16 - a.resLen) 0
  noGsm : a.gsm = false → a.rand = List.replicate 16 0 ∧ a.sres = List.replicate 4 0 ∧ a.kc = List.replicate 8 0
  noUmts : a.umts = false → a.ik = List.replicate 16 0 ∧ a.ck = List.replicate 16 0 ∧ a.autn = List.replicate 16 0 ∧
    a.resLen = 0

/-- a pointer to an octet -/
def PtrOk (o : Option (Option Byte)) : Prop := o ≠ some none

/-- an SM-RP-DA or -OA: none, one with an identity of 1..254 octets, or the null address -/
def SmRpOk (types : List Nat) (type : Nat) (id : Option (List Byte)) : Prop :=
  (type = 0 ∧ id = none) ∨ (type ∈ types ∧ ∃ v, id = some v ∧ 1 ≤ v.length ∧ v.length ≤ 254) ∨ (type = 255 ∧ id = none)

/-- messages that can be carried -/
structure MsgOk (m : Msg) : Prop where
  messageType : 1 ≤ m.messageType ∧ m.messageType ≤ 255
  imsi : m.imsi.length ≤ 16 ∧ ∀ c ∈ m.imsi, Bcd.isDigit c
  msisdn : Blob m.msisdn
  hlr : Blob m.hlr
  cause : m.cause ≤ 255
  cancelType : m.cancelType ≤ 255
  numPdp : m.numPdp ≤ 10
  pdpLen : m.pdpInfos.length = 10
  pdp : ∀ p ∈ m.pdpInfos.take m.numPdp, PdpOk p
  pdpRest : m.pdpInfos.drop m.numPdp = List.replicate (10 - m.numPdp) {}
  authLen : m.authVecs.length = 5
  authReq : m.messageType = 8 → m.numAuth ≤ 255 ∧ m.authVecs = List.replicate 5 {}
  numAuth : m.messageType ≠ 8 → m.numAuth ≤ 5
  auth : m.messageType ≠ 8 → ∀ a ∈ m.authVecs.take m.numAuth, VecOk a
  authRest : m.messageType ≠ 8 → m.authVecs.drop m.numAuth = List.replicate (5 - m.numAuth) {}
  auts : ∀ v, m.auts = some v → v.length = 14
  rand : ∀ v, m.rand = some v → v.length = 16
  pco : ∀ v, m.pco = some v → 1 ≤ v.length ∧ v.length ≤ 251
  cnDomain : m.cnDomain ≤ 255
  pdpCharg : Blob m.pdpCharg
  sessionState : m.sessionState ≤ 255
  sessionId : m.sessionId < 2 ^ 32 ∧ (m.sessionState = 0 → m.sessionId = 0)
  ssInfo : Blob m.ssInfo
  smRpMr : PtrOk m.smRpMr
  smRpDa : SmRpOk [1, 2, 3] m.smRpDaType m.smRpDa
  smRpOa : SmRpOk [2, 3] m.smRpOaType m.smRpOa
  smRpUi : Blob m.smRpUi
  smRpMms : PtrOk m.smRpMms
  smRpCause : PtrOk m.smRpCause
  smAlertRsn : m.smAlertRsn ≤ 255
  imei : Blob m.imei
  imeiResult : m.imeiResult ≤ 255
  messageClass : m.messageClass ≤ 255
  sourceName : Blob m.sourceName
  destName : Blob m.destName
  an : m.anProto ≤ 255 ∧ m.anData.length ≤ 254
  causeRr : m.causeRr ≤ 255 ∧ (m.causeRrSet = false → m.causeRr = 0)
  causeBssap : m.causeBssap ≤ 255 ∧ (m.causeBssapSet = false → m.causeBssap = 0)
  causeSm : m.causeSm ≤ 255
  rats : m.supportedRats.length ≤ 8 ∧ ∀ r ∈ m.supportedRats, 1 ≤ r ∧ r ≤ 3
  currentRat : m.currentRat ≤ 255

end Verif.Gsup
