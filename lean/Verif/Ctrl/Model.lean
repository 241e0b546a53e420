import Verif.Stats.Ident
/-!
The control interface (C113, C114): src/ctrl/control_cmd.c, src/ctrl/control_if.c.  A C string is the list of its bytes without the nul; a payload
is the bytes of the message behind the IPA headers.  Allocations succeed, the message has room for the nul that is appended.
-/
namespace Verif.Ctrl
open Verif

/-- a C string without its terminating nul -/
abbrev Str := List Byte

/-! ### Texts -/

/-- "err" -/
def sErr : Str := [0x65, 0x72, 0x72]
/-- "Request malformed" -/
def sMalformed : Str := [0x52, 0x65, 0x71, 0x75, 0x65, 0x73, 0x74, 0x20, 0x6d, 0x61, 0x6c, 0x66, 0x6f, 0x72, 0x6d, 0x65, 0x64]
/-- "Request type unknown" -/
def sTypeUnknown : Str := [0x52, 0x65, 0x71, 0x75, 0x65, 0x73, 0x74, 0x20, 0x74, 0x79, 0x70, 0x65, 0x20, 0x75, 0x6e, 0x6b, 0x6e, 0x6f, 0x77, 0x6e]
/-- "Missing ID" -/
def sMissingId : Str := [0x4d, 0x69, 0x73, 0x73, 0x69, 0x6e, 0x67, 0x20, 0x49, 0x44]
/-- "Invalid message ID number" -/
def sInvalidId : Str := [0x49, 0x6e, 0x76, 0x61, 0x6c, 0x69, 0x64, 0x20, 0x6d, 0x65, 0x73, 0x73, 0x61, 0x67, 0x65, 0x20, 0x49, 0x44, 0x20, 0x6e, 0x75, 0x6d, 0x62, 0x65, 0x72]
/-- "OOM" -/
def sOom : Str := [0x4f, 0x4f, 0x4d]
/-- " incomplete" -/
def sIncomplete : Str := [0x20, 0x69, 0x6e, 0x63, 0x6f, 0x6d, 0x70, 0x6c, 0x65, 0x74, 0x65]
/-- " with trailing characters" -/
def sTrailing : Str := [0x20, 0x77, 0x69, 0x74, 0x68, 0x20, 0x74, 0x72, 0x61, 0x69, 0x6c, 0x69, 0x6e, 0x67, 0x20, 0x63, 0x68, 0x61, 0x72, 0x61, 0x63, 0x74, 0x65, 0x72, 0x73]
/-- " variable contains invalid characters" -/
def sInvalidVar : Str := [0x20, 0x76, 0x61, 0x72, 0x69, 0x61, 0x62, 0x6c, 0x65, 0x20, 0x63, 0x6f, 0x6e, 0x74, 0x61, 0x69, 0x6e, 0x73, 0x20, 0x69, 0x6e, 0x76, 0x61, 0x6c, 0x69, 0x64, 0x20, 0x63, 0x68, 0x61, 0x72, 0x61, 0x63, 0x74, 0x65, 0x72, 0x73]
/-- "Trying to execute something not GET or SET" -/
def sNotGetSet : Str := [0x54, 0x72, 0x79, 0x69, 0x6e, 0x67, 0x20, 0x74, 0x6f, 0x20, 0x65, 0x78, 0x65, 0x63, 0x75, 0x74, 0x65, 0x20, 0x73, 0x6f, 0x6d, 0x65, 0x74, 0x68, 0x69, 0x6e, 0x67, 0x20, 0x6e, 0x6f, 0x74, 0x20, 0x47, 0x45, 0x54, 0x20, 0x6f, 0x72, 0x20, 0x53, 0x45, 0x54]
/-- "SET without a value" -/
def sNoValue : Str := [0x53, 0x45, 0x54, 0x20, 0x77, 0x69, 0x74, 0x68, 0x6f, 0x75, 0x74, 0x20, 0x61, 0x20, 0x76, 0x61, 0x6c, 0x75, 0x65]
/-- "Command not found" -/
def sNotFound : Str := [0x43, 0x6f, 0x6d, 0x6d, 0x61, 0x6e, 0x64, 0x20, 0x6e, 0x6f, 0x74, 0x20, 0x66, 0x6f, 0x75, 0x6e, 0x64]
/-- "SET not implemented" -/
def sSetNot : Str := [0x53, 0x45, 0x54, 0x20, 0x6e, 0x6f, 0x74, 0x20, 0x69, 0x6d, 0x70, 0x6c, 0x65, 0x6d, 0x65, 0x6e, 0x74, 0x65, 0x64]
/-- "Value failed verification." -/
def sVerify : Str := [0x56, 0x61, 0x6c, 0x75, 0x65, 0x20, 0x66, 0x61, 0x69, 0x6c, 0x65, 0x64, 0x20, 0x76, 0x65, 0x72, 0x69, 0x66, 0x69, 0x63, 0x61, 0x74, 0x69, 0x6f, 0x6e, 0x2e]
/-- "GET not implemented" -/
def sGetNot : Str := [0x47, 0x45, 0x54, 0x20, 0x6e, 0x6f, 0x74, 0x20, 0x69, 0x6d, 0x70, 0x6c, 0x65, 0x6d, 0x65, 0x6e, 0x74, 0x65, 0x64]
/-- "cmd_make_strvec failed." -/
def sStrvec : Str := [0x63, 0x6d, 0x64, 0x5f, 0x6d, 0x61, 0x6b, 0x65, 0x5f, 0x73, 0x74, 0x72, 0x76, 0x65, 0x63, 0x20, 0x66, 0x61, 0x69, 0x6c, 0x65, 0x64, 0x2e]
/-- "Error while resolving object" -/
def sResolve : Str := [0x45, 0x72, 0x72, 0x6f, 0x72, 0x20, 0x77, 0x68, 0x69, 0x6c, 0x65, 0x20, 0x72, 0x65, 0x73, 0x6f, 0x6c, 0x76, 0x69, 0x6e, 0x67, 0x20, 0x6f, 0x62, 0x6a, 0x65, 0x63, 0x74]
/-- "Error while parsing the index." -/
def sIndex : Str := [0x45, 0x72, 0x72, 0x6f, 0x72, 0x20, 0x77, 0x68, 0x69, 0x6c, 0x65, 0x20, 0x70, 0x61, 0x72, 0x73, 0x69, 0x6e, 0x67, 0x20, 0x74, 0x68, 0x65, 0x20, 0x69, 0x6e, 0x64, 0x65, 0x78, 0x2e]
/-- "Command not found." -/
def sNotFoundDot : Str := [0x43, 0x6f, 0x6d, 0x6d, 0x61, 0x6e, 0x64, 0x20, 0x6e, 0x6f, 0x74, 0x20, 0x66, 0x6f, 0x75, 0x6e, 0x64, 0x2e]
/-- "Command not present." -/
def sNotPresent : Str := [0x43, 0x6f, 0x6d, 0x6d, 0x61, 0x6e, 0x64, 0x20, 0x6e, 0x6f, 0x74, 0x20, 0x70, 0x72, 0x65, 0x73, 0x65, 0x6e, 0x74, 0x2e]
/-- "An error has occurred." -/
def sOccurred : Str := [0x41, 0x6e, 0x20, 0x65, 0x72, 0x72, 0x6f, 0x72, 0x20, 0x68, 0x61, 0x73, 0x20, 0x6f, 0x63, 0x63, 0x75, 0x72, 0x72, 0x65, 0x64, 0x2e]
/-- "Command has been handled." -/
def sHandled : Str := [0x43, 0x6f, 0x6d, 0x6d, 0x61, 0x6e, 0x64, 0x20, 0x68, 0x61, 0x73, 0x20, 0x62, 0x65, 0x65, 0x6e, 0x20, 0x68, 0x61, 0x6e, 0x64, 0x6c, 0x65, 0x64, 0x2e]

/-! ### Commands -/

/-- include/osmocom/ctrl/control_cmd.h:32-40 `enum ctrl_type`, but for CTRL_TYPE_UNKNOWN, that no command has -/
inductive Ty where
  | get | set | getReply | setReply | trap | error
  deriving DecidableEq, Repr

/-- include/osmocom/ctrl/control_cmd.h:70-85 `struct ctrl_cmd`; `none` is NULL; the connection, the node and deferring are left out -/
structure Cmd where
  type : Ty
  id : Option Str
  var : Option Str
  value : Option Str
  reply : Option Str
  deriving DecidableEq, Repr

/-- src/ctrl/control_cmd.c:44-53 `ctrl_type_vals`; `none` is CTRL_TYPE_UNKNOWN -/
def typeVals : List (Option Ty × Str) :=
  [(none, [0x28, 0x75, 0x6e, 0x6b, 0x6e, 0x6f, 0x77, 0x6e, 0x29]),
   (some .get, [0x47, 0x45, 0x54]),
   (some .set, [0x53, 0x45, 0x54]),
   (some .getReply, [0x47, 0x45, 0x54, 0x5f, 0x52, 0x45, 0x50, 0x4c, 0x59]),
   (some .setReply, [0x53, 0x45, 0x54, 0x5f, 0x52, 0x45, 0x50, 0x4c, 0x59]),
   (some .trap, [0x54, 0x52, 0x41, 0x50]),
   (some .error, [0x45, 0x52, 0x52, 0x4f, 0x52])]

/-- `tolower` in the C locale -/
def lower (c : Byte) : Byte := if 0x41 ≤ c.toNat ∧ c.toNat ≤ 0x5a then c + 0x20#8 else c

/-- src/core/utils.c:101-112 `get_string_value` of the types, by `strcasecmp`; `none`: not found, or CTRL_TYPE_UNKNOWN
(src/ctrl/control_cmd.c:370-371) -/
def typeOf (s : Str) : Option Ty := (typeVals.find? fun p => p.2.map lower == s.map lower).bind (·.1)

/-- src/core/utils.c:78-94 `get_value_string_or_null` of the types -/
def nameOf (t : Ty) : Str := ((typeVals.find? fun p => p.1 == some t).map (·.2)).getD []

/-- `strtok_r(NULL, delims, &saveptr)`: the token and what is left.  Delimiters are skipped; at the end of the string there is no token;
the delimiter behind the token is dropped -/
def strtok (delims : List Byte) (s : Str) : Option Str × Str :=
  let s := s.dropWhile (delims.contains ·)
  if s = [] then (none, []) else (some (s.takeWhile (!delims.contains ·)), (s.dropWhile (!delims.contains ·)).drop 1)

/-- `isdigit` -/
def isDigit (c : Byte) : Bool := decide (0x30 ≤ c.toNat ∧ c.toNat ≤ 0x39)

/-- src/ctrl/control_cmd.c:312-319 `id_str_valid` -/
def idValid (s : Str) : Bool := s.all isDigit

/-- `osmo_separated_identifiers_valid(var, ".")` -/
def varValid (s : Str) : Bool := Stats.separatedValid (some s) [0x2e]

/-- an error found while parsing: the command and `true` for `parse_failed` -/
def fail (id : Str) (var value : Option Str) (reply : Str) : Cmd × Bool :=
  ({ type := .error, id := some id, var := var, value := value, reply := some reply }, true)

/-- src/ctrl/control_cmd.c:403-429: the rest of a GET -/
def parseGet (id s : Str) : Cmd × Bool :=
  match strtok [0x20, 0x0a] s with
  | (none, _) => fail id none none (nameOf .get ++ sIncomplete)
  | (some var, s) =>
    if !varValid var then fail id none none (nameOf .get ++ sInvalidVar)
    else match (strtok [] s).1 with
      | some _ => fail id (some var) none (nameOf .get ++ sTrailing)
      | none => ({ type := .get, id := some id, var := some var, value := none, reply := none }, false)

/-- src/ctrl/control_cmd.c:430-462: the rest of a SET -/
def parseSet (id s : Str) : Cmd × Bool :=
  match strtok [0x20] s with
  | (none, _) => fail id none none (nameOf .set ++ sIncomplete)
  | (some var, s) =>
    match strtok [0x0a] s with
    | (none, _) => fail id none none (nameOf .set ++ sIncomplete)
    | (some val, s) =>
      if !varValid var then fail id none none (nameOf .set ++ sInvalidVar)
      else match (strtok [] s).1 with
        | some _ => fail id (some var) (some val) (nameOf .set ++ sTrailing)
        | none => ({ type := .set, id := some id, var := some var, value := some val, reply := none }, false)

/-- src/ctrl/control_cmd.c:463-489, 512-515: the rest of a GET_REPLY, SET_REPLY or TRAP; `talloc_strdup` of NULL is NULL -/
def parseReply (t : Ty) (id s : Str) : Cmd × Bool :=
  match strtok [0x20] s with
  | (none, _) => fail id none none (nameOf t ++ sIncomplete)
  | (some var, s) =>
    if !varValid var then fail id none none (nameOf t ++ sInvalidVar)
    else match (strtok [] s).1 with
      | none => fail sErr (some var) none sOom
      | some val => ({ type := t, id := some id, var := some var, value := none, reply := some val }, false)

/-- src/ctrl/control_cmd.c:491-502: the rest of an ERROR -/
def parseError (id s : Str) : Cmd × Bool :=
  match (strtok [] s).1 with
  | none => fail id none none []
  | some r => ({ type := .error, id := some id, var := none, value := none, reply := some r }, false)

/-- src/ctrl/control_cmd.c:402-508: what is behind the id -/
def parseRest (t : Ty) (id s : Str) : Cmd × Bool :=
  match t with
  | .get => parseGet id s
  | .set => parseSet id s
  | .error => parseError id s
  | .getReply => parseReply .getReply id s
  | .setReply => parseReply .setReply id s
  | .trap => parseReply .trap id s

/-- src/ctrl/control_cmd.c:343-519 `ctrl_cmd_parse3` of a payload; the string ends at its first nul -/
def parse (payload : List Byte) : Cmd × Bool :=
  match strtok [0x20] (payload.takeWhile (· != 0)) with
  | (none, _) => fail sErr none none sMalformed
  | (some t, s) =>
    match typeOf t with
    | none => fail sErr none none sTypeUnknown
    | some t =>
      match strtok [0x20] s with
      | (none, _) => fail sErr none none sMissingId
      | (some id, s) =>
        if !idValid id && !(t == .error && id == sErr) then fail sErr none none sInvalidId
        else parseRest t id s

/-- src/ctrl/control_cmd.c:524-581 `ctrl_cmd_make`: the payload -/
def make (c : Cmd) : Option (List Byte) :=
  match c.id with
  | none => none
  | some id =>
    let head := nameOf c.type ++ [0x20] ++ id ++ [0x20]
    match c.type with
    | .get => c.var.map fun v => head ++ v
    | .set => c.var.bind fun v => c.value.map fun x => head ++ v ++ [0x20] ++ x
    | .error => c.reply.map fun r => head ++ r
    | _ => c.var.bind fun v => c.reply.map fun r => head ++ v ++ [0x20] ++ r

/-! ### Carrying out -/

/-- what a call-back does: its return value, the reply it sets if any, and whether it defers the answer.  Whatever else it does, it is taken to
leave the command alone -/
structure Result where
  rc : Int
  reply : Option Str
  defer : Bool
  deriving DecidableEq

/-- include/osmocom/ctrl/control_cmd.h:97-107 `struct ctrl_cmd_element`; the call-backs get the variable and the value -/
structure Elem where
  words : List Str
  set : Option (Str → Str → Result)
  get : Option (Str → Result)
  verify : Option (Str → Str → Result)

/-- a call-back was called -/
inductive Call where
  | verify (words : List Str) (var val : Str)
  | set (words : List Str) (var val : Str)
  | get (words : List Str) (var : Str)
  deriving DecidableEq

/-- src/ctrl/control_cmd.c:177-198: words that are separated by white space, from the place of `cur`; `word` is what was read of one -/
def cmdWords : Str → Str → List Str
  | word, [] => if word = [] then [] else [word]
  | word, c :: s =>
    if c = 0x20 ∨ (0x09 ≤ c.toNat ∧ c.toNat ≤ 0x0d) then
      if word = [] then cmdWords [] s else word :: cmdWords [] s
    else cmdWords (word ++ [c]) s

/-- src/ctrl/control_cmd.c:173-204 `create_cmd_struct` -/
def createCmd (name : Str) : List Str :=
  if name.any (fun c => c == 0x28 || c == 0x29 || c == 0x7c) then [] else cmdWords [] name

/-- src/ctrl/control_cmd.c:73-82: the words of an element against those of the request; whether the loop returns or ends with all matched -/
def matchFrom : List Str → List Str → Bool
  | [], _ => true
  | _ :: _, [] => false
  | d :: ds, s :: ss => if d.head? = some 0x2a then true else if d ≠ s then false else matchFrom ds ss

/-- src/ctrl/control_cmd.c:59-87 `ctrl_cmd_get_element_match` -/
def elemMatch (vline : List Str) : List Elem → Option Elem
  | [] => none
  | e :: es => if e.words.length > vline.length then elemMatch vline es else if matchFrom e.words vline then some e else elemMatch vline es

/-- a command while it is carried out: whether the answer is deferred, and the calls made -/
structure St where
  cmd : Cmd
  defer : Bool
  calls : List Call

/-- src/ctrl/control_cmd.c:143-153: the type from the return value -/
def execOut (ret : Int) (st : St) : Int × St :=
  if ret = 1 then
    (ret, { st with cmd := { st.cmd with type := match st.cmd.type with | .set => .setReply | .get => .getReply | t => t } })
  else if ret = -1 then (ret, { st with cmd := { st.cmd with type := .error } })
  else (ret, st)

/-- the reply is set -/
def St.say (st : St) (s : Str) : St := { st with cmd := { st.cmd with reply := some s } }

/-- a call-back has been called -/
def St.called (st : St) (c : Call) (r : Result) : St :=
  { cmd := { st.cmd with reply := r.reply.or st.cmd.reply }, defer := st.defer || r.defer, calls := st.calls ++ [c] }

/-- src/ctrl/control_cmd.c:119-134: a SET -/
def execSet (e : Elem) (var val : Str) (st : St) : Int × St :=
  match e.set with
  | none => execOut (-1) (st.say sSetNot)
  | some set =>
    match e.verify with
    | none => execOut (set var val).rc (st.called (.set e.words var val) (set var val))
    | some verify =>
      let v := verify var val
      let st := st.called (.verify e.words var val) v
      if v.rc ≠ 0 then execOut (-1) (if st.cmd.reply = none then st.say sVerify else st)
      else execOut (set var val).rc (st.called (.set e.words var val) (set var val))

/-- src/ctrl/control_cmd.c:135-142: a GET -/
def execGet (e : Elem) (var : Str) (st : St) : Int × St :=
  match e.get with
  | none => execOut (-1) (st.say sGetNot)
  | some get => execOut (get var).rc (st.called (.get e.words var) (get var))

/-- src/ctrl/control_cmd.c:95-154 `ctrl_cmd_exec` -/
def exec (vline : List Str) (node : List Elem) (st : St) : Int × St :=
  match st.cmd.type, st.cmd.value with
  | .set, none => execOut (-1) (st.say sNoValue)
  | .set, some val =>
    match elemMatch vline node with
    | none => execOut (-1) (st.say sNotFound)
    | some e => execSet e (st.cmd.var.getD []) val st
  | .get, _ =>
    match elemMatch vline node with
    | none => execOut (-1) (st.say sNotFound)
    | some e => execGet e (st.cmd.var.getD []) st
  | _, _ => execOut (-1) (st.say sNotGetSet)

/-- src/vty/command.c:310-328: the pieces between white space; the first argument bounds the rounds -/
def pieces : Nat → Str → List Str
  | 0, _ => []
  | n + 1, s =>
    let r := (s.dropWhile (· != 0x20)).dropWhile (· == 0x20)
    s.takeWhile (· != 0x20) :: (if r = [] then [] else pieces n r)

/-- src/ctrl/control_if.c:253-267 with src/vty/command.c:266-342 `cmd_make_strvec`: the words of a variable, that has no white space and no
`!` or `#`; `none` if there are none -/
def vlineOf (var : Str) : Option (List Str) :=
  let s := (var.map fun c => if c = 0x2e then 0x20 else c).dropWhile (· == 0x20)
  if s = [] then none else some (pieces s.length s)

/-- `struct ctrl_handle` with what is registered: whether there is a call-back for replies, the look-up of an object (the words, the place, the
node; the return value, the node and the place), and the commands of a node -/
structure Handle where
  replyCb : Bool
  lookup : List Str → Nat → Nat → Int × Nat × Nat
  nodes : Nat → Option (List Elem)

/-- src/ctrl/control_if.c:269-325: the loop over the words; the first argument bounds the rounds.  The last part is whether `ret` is to be returned
at once -/
def walk (h : Handle) (vline : List Str) : Nat → Nat → Nat → St → Option (Int × St × Bool)
  | 0, _, _, _ => none
  | n + 1, i, node, st =>
    if i < vline.length then
      let (rc, node, i) := h.lookup vline i node
      if rc = 1 then walk h vline n (i + 1) node (if i + 1 = vline.length then st.say sNotPresent else st)
      else if rc = -19 then some (-1, { st with cmd := { st.cmd with type := .error, reply := some sResolve } }, true)
      else if rc = -34 then some (-1, { st with cmd := { st.cmd with type := .error, reply := some sIndex } }, true)
      else
        match h.nodes node with
        | none => walk h vline n (i + 1) node (if i + 1 = vline.length then st.say sNotPresent else st.say sNotFoundDot)
        | some cmds => let (ret, st) := exec (vline.drop i) cmds st; some (ret, st, false)
    else some (-1, st, false)

/-- src/ctrl/control_if.c:329-348: the end -/
def finish (ret : Int) (st : St) : Int × St :=
  let st := if st.cmd.reply = none then st.say (if ret = -1 then sOccurred else if ret = 1 then [] else sHandled) else st
  (ret, if ret = -1 then { st with cmd := { st.cmd with type := .error } } else st)

/-- src/ctrl/control_if.c:219-349 `ctrl_cmd_handle`; `fuel` bounds the look-ups, `none`: there are more -/
def handle (h : Handle) (fuel : Nat) (c : Cmd) : Option (Int × St) :=
  let reply := c.type = .setReply ∨ c.type = .getReply
  if reply ∧ (h.replyCb ∨ ((c.reply.getD []).take 2 = [0x4f, 0x4b])) then some (0, ⟨c, false, []⟩)
  else if c.type = .error then some (0, ⟨c, false, []⟩)
  else
    let st : St := ⟨{ c with reply := none }, false, []⟩
    match c.var.bind vlineOf with
    | none => some (finish (-1) (st.say sStrvec))
    | some vline => (walk h vline fuel 0 0 st).map fun (ret, st, now) => if now then (ret, st) else finish ret st

/-- src/ctrl/control_if.c:442-483: from a payload to the calls that were made, and the answer if any -/
def handleMsg (h : Handle) (fuel : Nat) (payload : List Byte) : Option (List Call × Option (List Byte)) :=
  match parse payload with
  | (c, true) => some ([], make c)
  | (c, false) => (handle h fuel c).map fun (result, st) => (st.calls, if st.defer ∨ result = 0 then none else make st.cmd)

end Verif.Ctrl
