import Verif.Common
/-!
Model of the validation of received NS messages, `src/gb/gprs_ns2_message.c`, and
of the status sent in reply to a message for which there is no NS-VC,
`reject_status_msg` of `src/gb/gprs_ns2.c`.

The elements parsed are a function from tag to contents.  Of the NS-VC only the
mode is used.  Logging is left out; the message buffer is large enough.
-/
namespace Verif.Ns

/-- Elements parsed: `struct tlv_parsed`, by content. -/
abbrev Parsed := Byte → Option (List Byte)

/-- tlv.h:560-561, `TLVP_PRES_LEN`. -/
def presLen (tp : Parsed) (tag : Byte) (n : Nat) : Bool :=
  match tp tag with
  | none => false
  | some v => decide (v.length ≥ n)

/-- tlv.h:600-608, `tlvp_val8`. -/
def val8 (tp : Parsed) (tag dflt : Byte) : Byte :=
  match tp tag with
  | some (b :: _) => b
  | _ => dflt

/-- The result of a check: `none` is 0, `some c` is -1 with the cause `c`. -/
abbrev Verdict := Option Byte

/-- gprs_ns2_message.c:49-58, `ns2_validate_reset`; tags and causes are those of
gsm_08_16.h:66-102. -/
def validateReset (tp : Parsed) : Verdict :=
  if !presLen tp 0x00#8 1 || !presLen tp 0x01#8 2 || !presLen tp 0x04#8 2 then some 0x0d#8 else none

/-- gprs_ns2_message.c:60-68, `ns2_validate_reset_ack`. -/
def validateResetAck (tp : Parsed) : Verdict :=
  if !presLen tp 0x01#8 2 || !presLen tp 0x04#8 2 then some 0x0d#8 else none

/-- gprs_ns2_message.c:70-78, `ns2_validate_block`. -/
def validateBlock (tp : Parsed) : Verdict :=
  if !presLen tp 0x01#8 2 || !presLen tp 0x00#8 1 then some 0x0d#8 else none

/-- gprs_ns2_message.c:80-88, `ns2_validate_block_ack`. -/
def validateBlockAck (tp : Parsed) : Verdict :=
  if !presLen tp 0x01#8 2 then some 0x0d#8 else none

/-- gprs_ns2_message.c:90-137, `ns2_validate_status`; `blockReset` is whether the
mode of the NS-VC is `GPRS_NS2_VC_MODE_BLOCKRESET`. -/
def validateStatus (blockReset : Bool) (tp : Parsed) : Verdict :=
  if !presLen tp 0x00#8 1 then some 0x0d#8
  else
    let c := val8 tp 0x00#8 0#8
    if c = 0x03#8 ∨ c = 0x04#8 then
      if !presLen tp 0x01#8 1 then some 0x0d#8
      else if !blockReset then some 0x0a#8
      else none
    else if c = 0x08#8 ∨ c = 0x0a#8 ∨ c = 0x0b#8 ∨ c = 0x0c#8 ∨ c = 0x0d#8 then
      if !presLen tp 0x02#8 1 then some 0x0d#8 else none
    else if c = 0x05#8 then
      if !presLen tp 0x03#8 2 then some 0x0d#8 else none
    else if c = 0x14#8 then
      if (tp 0x05#8).isNone && (tp 0x06#8).isNone then some 0x0d#8 else none
    else none

/-- gprs_ns2_message.c:139-170, `ns2_validate`; `l2len` is the length of the
message with its header of one octet. -/
def validate (blockReset : Bool) (type : Byte) (l2len : Nat) (tp : Parsed) : Verdict :=
  if type = 0x02#8 then validateReset tp
  else if type = 0x03#8 then validateResetAck tp
  else if type = 0x04#8 then validateBlock tp
  else if type = 0x05#8 then validateBlockAck tp
  else if type = 0x08#8 then validateStatus blockReset tp
  else if type = 0x0a#8 ∨ type = 0x0b#8 ∨ type = 0x06#8 ∨ type = 0x07#8 then
    if l2len ≠ 1 then some 0x0b#8 else none
  else none

/-- gprs_ns2.c:712-764, `reject_status_msg`: the elements of the status message,
each put by `msgb_tvlv_put`, or `none` for -EINVAL; `orig` are the octets of the
message rejected. -/
def reject (orig : List Byte) (tp : Parsed) (cause : Byte) : Option (List (Byte × List Byte)) :=
  let withVci :=
    if cause = 0x03#8 ∨ cause = 0x04#8 then
      if !presLen tp 0x01#8 2 then none
      else (tp 0x01#8).map fun v => [(0x00#8, [cause]), (0x01#8, v.take 2)]
    else some [(0x00#8, [cause])]
  withVci.map fun m =>
    if cause = 0x08#8 ∨ cause = 0x0a#8 ∨ cause = 0x0b#8 ∨ cause = 0x0c#8 ∨ cause = 0x0d#8 then
      m ++ [(0x02#8, orig)]
    else m

end Verif.Ns
