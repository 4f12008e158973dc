import Verif.Model.Topic
import Verif.Model.Codec

/-!
# Authentication

Models mercurio-server/src/auth.rs and mercuriod/src/credentials.rs.
-/

namespace Mercurio

/-- `AuthResult`, mercurio-server/src/auth.rs:14-22. -/
inductive AuthResult where
  | success
  | continue (challenge : Buf)
  | failed (r : ReasonCode)
  deriving DecidableEq, Repr

/-- `AuthMethod` (a trait), mercurio-server/src/auth.rs:28-43: any two functions.
Simplification: methods are pure (the trait takes `&self`). -/
structure AuthMethod where
  start : Option Buf → AuthResult
  cont : Buf → AuthResult

/-- `AuthManager`, mercurio-server/src/auth.rs:148-151. -/
structure AuthManager where
  methods : Map Str AuthMethod

namespace AuthManager

/-- `new`, mercurio-server/src/auth.rs:161-165. -/
def new : AuthManager := ⟨[]⟩

/-- `register`, mercurio-server/src/auth.rs:168-170. -/
def register (a : AuthManager) (name : Str) (m : AuthMethod) : AuthManager := ⟨a.methods.insert name m⟩

/-- `supports_method`, mercurio-server/src/auth.rs:173-175. -/
def supportsMethod (a : AuthManager) (name : Str) : Bool := (a.methods.get name).isSome

/-- `supported_methods`, mercurio-server/src/auth.rs:178-180 (the order of a `HashMap` is arbitrary; here it is
some order). -/
def supportedMethods (a : AuthManager) : List Str := a.methods.keys

/-- `start_auth`, mercurio-server/src/auth.rs:183-188. -/
def startAuth (a : AuthManager) (name : Str) (data : Option Buf) : AuthResult :=
  match a.methods.get name with
  | some m => m.start data
  | none => .failed .badAuthenticationMethod

/-- `continue_auth`, mercurio-server/src/auth.rs:191-196. -/
def continueAuth (a : AuthManager) (name : Str) (data : Buf) : AuthResult :=
  match a.methods.get name with
  | some m => m.cont data
  | none => .failed .badAuthenticationMethod

end AuthManager

/-! ## PLAIN -/

/-- `data[1..].iter().position(|&b| b == 0)` and the slices around it,
mercurio-server/src/auth.rs:72-77: the bytes before the first NUL and those after it. -/
def cutNul : Buf → Option (Buf × Buf)
  | [] => none
  | b :: bs => if b = 0 then some ([], bs) else (cutNul bs).map fun r => (b :: r.1, r.2)

/-- `parse_plain_data`, mercurio-server/src/auth.rs:64-81. -/
def parsePlain : Buf → Option (Str × Str)
  | [] => none
  | b :: bs =>
    if b ≠ 0 then none
    else match cutNul bs with
      | none => none
      | some (u, p) => if utf8Valid u && utf8Valid p then some (u, p) else none

/-- `PlainAuth::auth_start`, mercurio-server/src/auth.rs:89-104, for a credential map. -/
def plainStart (creds : Map Str Str) : Option Buf → AuthResult
  | none => .failed .badAuthenticationMethod
  | some data =>
    match parsePlain data with
    | none => .failed .malformedPacket
    | some (u, p) => if creds.get u = some p then .success else .failed .badUserNameOrPassword

/-- `PlainAuth`, mercurio-server/src/auth.rs:84-110. -/
def plainAuth (creds : Map Str Str) : AuthMethod := ⟨plainStart creds, fun _ => .failed .protocolError⟩

/-! ## Credential validators -/

/-- `SimpleCredentialValidator::validate`, mercurio-server/src/auth.rs:134-145. -/
def simpleValidate (creds : Map Str Str) (user : Str) (password : Buf) : Bool :=
  if utf8Valid password then
    match creds.get user with
    | some stored => stored = password
    | none => false
  else false

/-- `HashedCredentialValidator::validate`, mercuriod/src/credentials.rs:25-46.  `verify stored pw`
stands for `PasswordHash::new(stored)` succeeding and argon2 verifying `pw` against it (external
library). -/
def hashedValidate (verify : Str → Buf → Bool) (creds : Map Str Str) (user : Str) (password : Buf) :
    Bool :=
  match creds.get user with
  | none => false
  | some stored =>
    if stored.head? = some 0x24 then verify stored password
    else if utf8Valid password then stored = password else false

end Mercurio
