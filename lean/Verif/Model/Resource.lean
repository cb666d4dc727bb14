import Verif.Model.Attributes
/-!
# Resources
Models `opentelemetry-sdk/src/opentelemetry/sdk/resources/__init__.py`.
-/
namespace Otel

/-- `Resource` (158–171): an immutable `BoundedAttributes` without limits, and a schema url (`""` is none). -/
structure Resource where
  attrs : Dict Str Val
  schema : Str
deriving DecidableEq, Repr

namespace Resource

/-- `self._attributes` as the constructor builds it (167), which is what the property `attributes` returns (244–246). -/
def attributesOf (attributes : List (AKey × Val)) : BAttrs := BAttrs.new none attributes true none

/-- `Resource(attributes, schema_url)` (164–171). -/
def new (attributes : List (AKey × Val)) (schema : Option Str) : Resource :=
  ⟨(attributesOf attributes).d, schema.getD []⟩

/-- The items of a dictionary with `str` keys. -/
def items (d : Dict Str Val) : List (AKey × Val) := d.map (fun kv => (.str kv.1, kv.2))

/-- `Resource.merge` (252–285). -/
def merge (self other : Resource) : Resource :=
  let merged := Dict.update self.attrs other.attrs
  if self.schema = [] then new (items merged) (some other.schema)
  else if other.schema = [] then new (items merged) (some self.schema)
  else if self.schema = other.schema then new (items merged) (some other.schema)
  else self

/-- `_EMPTY_RESOURCE` (313). -/
def empty : Resource := new [] none

/-- `SERVICE_NAME`. -/
def serviceName : Str := "service.name".toList
/-- `PROCESS_EXECUTABLE_NAME`. -/
def executableName : Str := "process.executable.name".toList

/-- A plain string value. -/
def strVal (s : Str) : Val := .atom (.str s true)

/-- `_DEFAULT_RESOURCE` (314–320); the argument is the version of the SDK. -/
def default (version : Str) : Resource :=
  new [(.str "telemetry.sdk.language".toList, strVal "python".toList), (.str "telemetry.sdk.name".toList, strVal "opentelemetry".toList),
    (.str "telemetry.sdk.version".toList, strVal version)] none

/-- The loop of `OTELResourceDetector.detect` (340–351): items without `=` are skipped. -/
def envMap (s : Str) : Dict Str Str :=
  (splitC ',' s).foldl (fun d item =>
    match cutC '=' item with
    | (k, some v) => Dict.set d (pyStrip k) (Url.unquote (pyStrip v))
    | (_, none) => d) []

/-- `if env_resources_items:` (336–339): a variable that is not set or empty gives nothing. -/
def envAttrs : Option Str → Dict Str Str
  | some (c :: cs) => envMap (c :: cs)
  | _ => []

/-- `OTELResourceDetector.detect` (335–356); the arguments are the values of `OTEL_RESOURCE_ATTRIBUTES` and `OTEL_SERVICE_NAME`. -/
def detect (attributes serviceNameVar : Option Str) : Resource :=
  let d := envAttrs attributes
  let d := match serviceNameVar with
    | some (c :: cs) => Dict.set d serviceName (c :: cs)
    | _ => d
  new (d.map (fun kv => (.str kv.1, strVal kv.2))) none

/-- How a detector's future ends (516–539): with a resource, or with an exception or timeout, in which case `raiseOnError` decides. -/
inductive Detected where
  | ok (r : Resource)
  | fails (raiseOnError : Bool)

/-- The loop of `get_aggregated_resources` (512–541); `none` is a raised exception. -/
def aggregate (initial : Resource) : List Detected → Option Resource
  | [] => some initial
  | .ok r :: l => aggregate (initial.merge r) l
  | .fails false :: l => aggregate (initial.merge empty) l
  | .fails true :: _ => none

/-- Python truth of a stored value; the float with id 0 stands for zero. -/
def truthy : Val → Bool
  | .atom .none => false
  | .atom (.bool b) => b
  | .atom (.int i _) => decide (i ≠ 0)
  | .atom (.float i _) => decide (i ≠ 0)
  | .atom (.str s _) => !s.isEmpty
  | .atom (.bytes b _) => !b.isEmpty
  | .atom (.other _) => true
  | .seq l => !l.isEmpty

/-- `":" + process_executable_name` (228–234): `none` is `TypeError` (the attribute is not a string). -/
def defaultServiceName (exe : Option Val) : Option Str :=
  match exe with
  | none => some "unknown_service".toList
  | some v =>
    if truthy v then
      match v with
      | .atom (.str s _) => some ("unknown_service".toList ++ ':' :: s)
      | _ => none
    else some "unknown_service".toList

/-- Truth of `attributes.get(SERVICE_NAME, None)` (227). -/
def named : Option Val → Bool
  | some v => truthy v
  | none => false

/-- The end of `Resource.create` (223–238), on the aggregated resource. -/
def finish (aggregated : Resource) (attributes : List (AKey × Val)) (schema : Option Str) : Option Resource :=
  let resource := aggregated.merge (new attributes schema)
  if named (Dict.get? resource.attrs serviceName) then some resource
  else
    match defaultServiceName (Dict.get? resource.attrs executableName) with
    | none => none
    | some n => some (resource.merge (new [(.str serviceName, strVal n)] schema))

/-- `Resource.create` (172–238) with what the loaded detectors return, in the order in which the set of their names is iterated, which is
arbitrary. `attributes` is empty for `None`. -/
def create (version : Str) (detected : List Detected) (attributes : List (AKey × Val)) (schema : Option Str) : Option Resource :=
  match aggregate (default version) detected with
  | none => none
  | some r => finish r attributes schema

/-- The names of the detectors to load (192–201); Python keeps them in a set, so the order and repetitions here mean nothing. -/
def detectorNames (env : Str) : List Str := "otel".toList :: ((splitC ',' env).filter (fun item => !item.isEmpty)).map pyStrip

/-- `Resource.create` (172–239) with `OTEL_EXPERIMENTAL_RESOURCE_DETECTORS=env`, where `order` is the order in which Python happens to iterate the set of
names and `load` what becomes of the detector of that name: `none` if it cannot be loaded (215–220, logged and skipped). -/
def createFrom (version : Str) (order : List Str) (load : Str → Option Detected) (attributes : List (AKey × Val)) (schema : Option Str) : Option Resource :=
  create version (order.filterMap load) attributes schema

end Resource
end Otel
