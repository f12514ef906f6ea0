import Verif.Jsonld.Validate

/-!
# Model of jsonld/tools/url.py `validate_url`

Strings are lists of ASCII characters.  `urllib.parse.urlsplit` is modelled as far as
`validate_url` looks at it: scheme and netloc.
-/
namespace Verif.Jsonld

/-- `url.lstrip(_WHATWG_C0_CONTROL_OR_SPACE)` of urlsplit, then the removal of tab, CR and LF.
(library `urllib.parse`, used by jsonld/tools/url.py:33-61) -/
def cleanUrl (u : List Char) : List Char :=
  (u.dropWhile fun c => c.toNat ≤ 32).filter fun c => c != '\t' && c != '\r' && c != '\n'

/-- `scheme_chars` of urllib.parse (library `urllib.parse`, used by jsonld/tools/url.py:33-61) -/
def schemeChar (c : Char) : Bool := c.isAlpha || c.isDigit || c == '+' || c == '-' || c == '.'

/-- `url[0].isalpha()` of a non-empty string. (library `urllib.parse`, used by jsonld/tools/url.py:33-61) -/
def startsAlpha : List Char → Bool
  | [] => false
  | c :: _ => c.isAlpha

/-- The scheme part of urlsplit: `url[:i]` for the first ':' if it is a possible scheme, in lower
case, and the rest; otherwise no scheme and the whole url. (library `urllib.parse`, used by jsonld/tools/url.py:33-61) -/
def splitScheme (u : List Char) : List Char × List Char :=
  let s := u.takeWhile (· != ':')
  match u.dropWhile (· != ':') with
  | [] => ([], u)
  | _ :: rest =>
    if startsAlpha s && s.all schemeChar then (s.map Char.toLower, rest) else ([], u)

/-- `_splitnetloc`: the characters after `//` up to the first of `/?#`. (library `urllib.parse`, used by jsonld/tools/url.py:33-61) -/
def splitNetloc : List Char → List Char
  | '/' :: '/' :: r => r.takeWhile fun c => c != '/' && c != '?' && c != '#'
  | _ => []

/-- urllib.parse.urlsplit: scheme and netloc; ValueError for wrong square brackets.
`bracketOk` stands for `_check_bracketed_host` on the netloc (an IPv6 address in brackets).
(library `urllib.parse`, used by jsonld/tools/url.py:33-61) -/
def urlsplit (bracketOk : List Char → Bool) (u : List Char) : Outcome (List Char × List Char) :=
  let sr := splitScheme (cleanUrl u)
  let netloc := splitNetloc sr.2
  if netloc.contains '[' != netloc.contains ']' then .error .valueError
  else if netloc.contains '[' && !bracketOk netloc then .error .valueError
  else .ok (sr.1, netloc)

/-- The characters jsonld/tools/url.py:11 `VALID_URL_REGEX` does not match. -/
def hostChar (c : Char) : Bool := c.isAlpha || c.isDigit || c == '_' || c == '.' || c == ':' || c == '-'

/-- jsonld/tools/url.py:52 `re.match(VALID_URL_REGEX, netloc)`: match looks at the beginning only. -/
def badStart : List Char → Bool
  | [] => false
  | c :: _ => !hostChar c

/-- jsonld/tools/url.py:33-61 `validate_url` (jsonld/engine/utils.py:19-47 is the same) -/
def validateUrl (bracketOk : List Char → Bool) (secure : Bool) (u : List Char) : Outcome Bool :=
  match urlsplit bracketOk u with
  | .error e => .error e
  | .ok (scheme, netloc) =>
    if scheme ≠ "http".toList ∧ scheme ≠ "https".toList then .ok false
    else if netloc = [] then .ok false
    else if badStart netloc then .ok false
    else if secure ∧ scheme ≠ "https".toList then .ok false
    else .ok true

/-- `validate_url` as an additional function of a SetterValidator: its result is not looked at
(jsonld/tools/type.py:21-24), only exceptions matter.  None and numbers are not strings:
urlparse accepts None (and other false values) and raises AttributeError for the others. -/
def validateUrlCheck (bracketOk : List Char → Bool) : Validator
  | .str s => match validateUrl bracketOk false s.toList with
    | .error e => .error e
    | .ok _ => .ok ()
  | .none => .ok ()
  | _ => .error .attributeError

end Verif.Jsonld
