import Verif.Model.Server

/-!
# The daemon's password file

Models mercuriod/src/main.rs:139-252.  File contents and user names are Rust strings; here they
are lists of characters.  Reading a file that does not exist or is not UTF-8 is `none`.
-/

namespace Mercurio

/-- A Rust string as its characters (`std::fs::read_to_string`, mercuriod/src/main.rs:173). -/
abbrev Text := List Char

/-- The bytes of a string (mercuriod/src/credentials.rs:25-46 works on them). -/
def Text.bytes (t : Text) : Str := t.flatMap String.utf8EncodeChar

/-- Rust's `char::is_whitespace` (external: the Unicode property White_Space), used by `trim` in
mercuriod/src/main.rs:178. -/
def isWhite (c : Char) : Bool :=
  let n := c.toNat
  (9 ≤ n && n ≤ 13) || n == 0x20 || n == 0x85 || n == 0xa0 || n == 0x1680 ||
    (0x2000 ≤ n && n ≤ 0x200a) || n == 0x2028 || n == 0x2029 || n == 0x202f || n == 0x205f ||
    n == 0x3000

/-- `str::trim` (external), mercuriod/src/main.rs:178. -/
def trim (t : Text) : Text := ((t.dropWhile isWhite).reverse.dropWhile isWhite).reverse

/-- Rust's `str::strip_suffix('\r')` as used by `str::lines` (external), mercuriod/src/main.rs:177. -/
def stripCR (t : Text) : Text := if t.getLast? = some '\r' then t.dropLast else t

/-- `str::lines` (external), mercuriod/src/main.rs:177: the pieces ended by a line feed, without it
and without a carriage return before it, and what follows the last line feed unless it is empty.
`cur` is the piece read so far. -/
def linesFrom (cur : Text) : Text → List Text
  | [] => if cur = [] then [] else [cur]
  | c :: cs => if c = '\n' then stripCR cur :: linesFrom [] cs else linesFrom (cur ++ [c]) cs

/-- `content.lines()`, mercuriod/src/main.rs:177. -/
def lines (t : Text) : List Text := linesFrom [] t

/-- `str::split_once(':')` (external), mercuriod/src/main.rs:182. -/
def splitColon : Text → Option (Text × Text)
  | [] => none
  | c :: cs => if c = ':' then some ([], cs) else (splitColon cs).map fun r => (c :: r.1, r.2)

/-- The body of the loop of `load_password_file`, mercuriod/src/main.rs:178-190; `none` is the
error for a line of another format. -/
def loadLine (m : Map Text Text) (line : Text) : Option (Map Text Text) :=
  let line := trim line
  if line = [] ∨ line.head? = some '#' then some m
  else match splitColon line with
    | none => none
    | some (u, h) => some (m.insert u h)

/-- The loop of `load_password_file`, mercuriod/src/main.rs:176-193. -/
def loadLines : Map Text Text → List Text → Option (Map Text Text)
  | m, [] => some m
  | m, l :: ls =>
    match loadLine m l with
    | none => none
    | some m' => loadLines m' ls

/-- `load_password_file`, mercuriod/src/main.rs:172-194; `none` is an error (its text is not
modelled).  `file` is the content of the file, if it can be read. -/
def loadPasswords (file : Option Text) : Option (Map Text Text) :=
  match file with
  | none => none
  | some content => loadLines [] (lines content)

/-- `load_password_file_entries`, mercuriod/src/main.rs:233-235: any error counts as an empty
file. -/
def loadEntries (file : Option Text) : Map Text Text :=
  match loadPasswords file with
  | some m => m
  | none => []

/-- The two header lines, mercuriod/src/main.rs:243-247. -/
def passwordHeader : Text :=
  "# Mercurio password file\n# Managed by `mercuriod passwd`. Do not edit manually.\n".toList

/-- `write_password_file`, mercuriod/src/main.rs:238-252: the new content of the file, for the
entries in the order in which the hash map yields them. -/
def writePasswords (entries : List (Text × Text)) : Text :=
  passwordHeader ++ entries.flatMap fun e => e.1 ++ ':' :: e.2 ++ ['\n']

/-- `add_or_update_user`, mercuriod/src/main.rs:197-219: the map it writes, or `none` if it stops
with an error (and leaves the file alone).  `password` and `confirm` are what the user types, `hash`
the salted hash function (external). -/
def addUser (hash : Text → Option Text) (file : Option Text) (user password confirm : Text) :
    Option (Map Text Text) :=
  if password = [] then none
  else if password ≠ confirm then none
  else match hash password with
    | none => none
    | some h => some ((loadEntries file).insert user h)

/-- `delete_user`, mercuriod/src/main.rs:222-230: the map it writes, or `none` if it stops with an
error (and leaves the file alone). -/
def deleteUser (file : Option Text) (user : Text) : Option (Map Text Text) :=
  let entries := loadEntries file
  if (entries.get user).isSome then some (entries.erase user) else none

/-- The file after a command (mercuriod/src/main.rs:215,227): rewritten with the entries in the order
`order` of the hash map's iteration, or left alone after an error. -/
def fileAfter (file : Option Text) (result : Option (Map Text Text))
    (order : Map Text Text → List (Text × Text)) : Option Text :=
  match result with
  | some m => some (writePasswords (order m))
  | none => file

/-- The authentication configuration of the daemon, mercuriod/src/main.rs:139-160; `none` if the
daemon stops with an error.  `enabled` is `config.auth.enabled`; `passwordFile` the content of the
configured password file, if one is configured.  Simplification: a configured but unreadable file is
`some none`. -/
def daemonAuth (verify : Str → Buf → Bool) (enabled : Bool) (passwordFile : Option (Option Text)) :
    Option AuthConfig :=
  if enabled then
    match passwordFile with
    | some file =>
      match loadPasswords file with
      | some m => some
          { requireAuth := true
            validator := some (hashedValidate verify (m.map fun e => (Text.bytes e.1, Text.bytes e.2)))
            manager := none }
      | none => none
    | none => some { requireAuth := true, validator := none, manager := none }
  else some {}

end Mercurio
