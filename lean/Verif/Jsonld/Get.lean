import Verif.Jsonld.Data
import Verif.Jsonld.Intake

/-!
# Model of jsonld_get (jsonld/utils.py:38-52; jsonld/tools/url.py:16-30 is the same text)

`requests` is a library: how it turns its session headers and the `headers=` it is given into the headers of the
request is modelled from its documentation (`requests.structures.CaseInsensitiveDict`, and a header whose value is None is
not sent). `str.lower` is a parameter: nothing depends on which function it is.
-/
namespace Verif.Jsonld

/-- HttpHeaders as a caller writes them: a dict; the value None asks not to send the header. (jsonld/utils.py:42) -/
abbrev HttpHeaders := PyDict String (Option String)

/-- jsonld/utils.py:38-40 `DEFAULT_HEADERS` -/
def defaultHeaders : HttpHeaders := [("Accept", some "application/ld+json, application/activity+json, application/json")]

/-- jsonld/utils.py:50 `{**DEFAULT_HEADERS, **(headers if headers else {})}` -/
def getHeaders (headers : Option HttpHeaders) : HttpHeaders := defaultHeaders.dmerge (headers.getD [])

/-- `requests` (used at jsonld/utils.py:51): the session headers and then those of the call go, one by one, into a dictionary that ignores case;
then those with the value None are left out. -/
def wire (lower : String → String) (session given : HttpHeaders) (name : String) : Option String :=
  ((dictOf ((session ++ given).map fun p => (lower p.1, p.2))).dget (lower name)).join

/-- What comes back: the status and what `.json()` of it does. (jsonld/utils.py:51-52) -/
structure HttpResponse where
  status : Nat
  json : Outcome Tree

/-- The network as `requests.get` sees it: address and headers on the wire to a response, or an exception. (jsonld/utils.py:51) -/
abbrev HttpNet := String → (String → Option String) → Outcome HttpResponse

/-- What `jsonld_get` returns: the response, or the data. (jsonld/utils.py:52) -/
inductive HttpReply where
  | raw (r : HttpResponse)
  | data (t : Tree)

/-- jsonld/utils.py:42-52 `jsonld_get` -/
def jsonldGet (lower : String → String) (session : HttpHeaders) (net : HttpNet) (url : String) (headers : Option HttpHeaders := none)
    (json : Bool := true) : Outcome HttpReply :=
  match net url (wire lower session (getHeaders headers)) with
  | .error e => .error e
  | .ok resp => if !json then .ok (.raw resp) else
    match resp.json with
    | .error e => .error e
    | .ok t => .ok (.data t)

end Verif.Jsonld
