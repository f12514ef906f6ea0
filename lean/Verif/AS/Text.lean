import Verif.AS.Output
import Verif.AS.Walk
import Verif.Jsonld.Text

/-!
# `obj.json(…)` and `engine.from_json(text)` with the text in between
-/
namespace Verif.AS
open Verif Verif.Jsonld

/-- jsonld/jsonld.py:103-123 `json` of an object with these properties (read in the context for output): `data` with the same arguments but
`reject_values`, and json.dumps. -/
def jsonText (o : Text.Layout) (a : DataArgs) (fs : List (String × Val)) : String :=
  Text.dumps o (.obj (toTreeFields (data { a with rejected := fun _ => false } fs)))

/-- `obj.json(minified=…, indent=…)` of a packaged object. (jsonld/jsonld.py:103-123) -/
def outputText {J : Type} (w : World J) (o : Text.Layout) (c : String) (s : Slots) : Outcome String :=
  match jsonFields w c s (propNames c) with
  | .error e => .error e
  | .ok fs => .ok (jsonText o {} fs)

/-- jsonld/engine/json_input.py:101-123 `from_json` of a text. -/
def fromText (e : Engine) (value : String → Bool × String) (s : String) : Outcome Val := fromData e (Text.loads value) (.str s)

end Verif.AS
