import Verif.Jsonld.Url

/-!
# Model of jsonld/docloader.py
-/
namespace Verif.Jsonld

/-- What `parse_link_header(...)` gives for one relation: nothing, one link (target and type) or
several. (jsonld/docloader.py:80-110) -/
inductive LinkRel where
  | absent
  | one (target : String) (type : Option String)
  | several
  deriving DecidableEq

/-- A response of the server: content type header, final url, body (`response.json()` may fail) and
the link header if there is one (its relations "context" and "alternate"). `J` are JSON bodies. (jsonld/docloader.py:56-82) -/
structure Response (J : Type) where
  contentType : Option String
  url : String
  body : Outcome J
  link : Option (LinkRel × LinkRel) := none

/-- A loaded document (jsonld/docloader.py:83-88). -/
structure RemoteDoc (J : Type) where
  contentType : String
  contextUrl : Option String
  documentUrl : String
  document : J
  deriving DecidableEq

variable {J : Type}

/-- jsonld/docloader.py:56-75: the checks of the url. -/
def checkLoadUrl (bracketOk : List Char → Bool) (secure : Bool) (url : String) : Outcome Unit :=
  match urlsplit bracketOk url.toList with
  | .error e => .error e
  | .ok (scheme, netloc) =>
    if scheme ≠ "http".toList ∧ scheme ≠ "https".toList then .error .valueError
    else if netloc = [] then .error .valueError
    else if badStart netloc then .error .valueError
    else if secure ∧ scheme ≠ "https".toList then .error .valueError
    else .ok ()

/-- jsonld/docloader.py:80-82 -/
def Response.typeOf (r : Response J) : String :=
  match r.contentType with
  | none => "application/octet-stream"
  | some "" => "application/octet-stream"
  | some t => t

/-- The parts of pyld and `re` used for link headers: `jsonld.prepend_base` and the match with
`^application/(\w*\+)?json$`. (jsonld/docloader.py:80-110) -/
structure LinkTools where
  prependBase : String → String → String
  isJsonType : String → Bool

/-- jsonld/docloader.py:91-102: the context relation. -/
def linkContext (ct : String) (rel : LinkRel) (doc : RemoteDoc J) : Outcome (RemoteDoc J) :=
  match rel with
  | .absent => .ok doc
  | .one t _ => if ct ≠ "application/ld+json" then .ok { doc with contextUrl := some t } else .ok doc
  | .several => if ct ≠ "application/ld+json" then .error .jsonLd else .ok doc

/-- jsonld/docloader.py:103-110: the alternate relation; a list has no attribute `get`. -/
def linkAlternate (lt : LinkTools) (url ct : String) (rel : LinkRel) (doc : RemoteDoc J) : Outcome (RemoteDoc J) :=
  match rel with
  | .absent => .ok doc
  | .several => .error .attributeError
  | .one t ty => if ty = some "application/ld+json" ∧ lt.isJsonType ct = false then
      .ok { doc with contentType := "application/ld+json", documentUrl := lt.prependBase url t } else .ok doc

/-- jsonld/docloader.py:80-111: the document made from a response. -/
def makeDoc (lt : LinkTools) (url : String) (r : Response J) : Outcome (RemoteDoc J) :=
  match r.body with
  | .error e => .error e
  | .ok j =>
    let doc : RemoteDoc J := ⟨r.typeOf, none, r.url, j⟩
    match r.link with
    | none => .ok doc
    | some (c, a) =>
      match linkContext r.typeOf c doc with
      | .error e => .error e
      | .ok doc => linkAlternate lt url r.typeOf a doc

/-- jsonld/docloader.py:50-111 `get`: the outcome and the requests made; `net` is what the network does
with the request. -/
def loaderGet (bracketOk : List Char → Bool) (lt : LinkTools) (secure : Bool) (url : String) (net : Outcome (Response J)) :
    Outcome (RemoteDoc J) × List String :=
  match checkLoadUrl bracketOk secure url with
  | .error e => (.error e, [])
  | .ok _ => match net with
    | .error e => (.error e, [url])
    | .ok r => (makeDoc lt url r, [url])

/-- jsonld/docloader.py:35-48 `RequestsJsonLoader.__call__`: every exception becomes a JsonLdError. -/
def asJsonLdError : Outcome (RemoteDoc J) → Outcome (RemoteDoc J)
  | .ok d => .ok d
  | .error _ => .error .jsonLd

/-- One call of a `CachedRequestsJsonLoader`: its `secure` flag, the url and what the network would
do. (jsonld/docloader.py:128-144) -/
structure Load (J : Type) where
  secure : Bool
  url : String
  net : Outcome (Response J)

/-- jsonld/docloader.py:128-144 `CachedRequestsJsonLoader.__call__`: new cache (shared by all loaders),
outcome, requests made. -/
def cachedCall (bracketOk : List Char → Bool) (lt : LinkTools) (cache : PyDict String (RemoteDoc J)) (l : Load J) :
    PyDict String (RemoteDoc J) × Outcome (RemoteDoc J) × List String :=
  match cache.dget l.url with
  | some d => (cache, .ok d, [])
  | none => match loaderGet bracketOk lt l.secure l.url l.net with
    | (.ok d, rs) => (cache.dset l.url d, .ok d, rs)
    | (.error e, rs) => (cache, asJsonLdError (.error e), rs)

/-- A sequence of calls: what each returned and requested. (histories of jsonld/docloader.py:128-144) -/
def cachedRun (bracketOk : List Char → Bool) (lt : LinkTools) :
    PyDict String (RemoteDoc J) → List (Load J) → List (Outcome (RemoteDoc J) × List String)
  | _, [] => []
  | c, l :: ls =>
    let r := cachedCall bracketOk lt c l
    r.2 :: cachedRun bracketOk lt r.1 ls

end Verif.Jsonld
