import Verif.Model.Py
/-!
# The Prometheus exporter
Models `exporter/opentelemetry-exporter-prometheus/src/opentelemetry/exporter/prometheus/__init__.py` and `_mapping.py` next to it. The
client library `prometheus_client` is not modelled, except that a family keeps the samples added to it in order.
-/
namespace Otel
namespace Prom

/-! ## Buckets -/

/-- The loop of `_convert_buckets` (__init__.py:116–128), with the running total. -/
def convertLoop {β : Type} : Nat → List β → List Nat → List (β × Nat)
  | total, b :: bs, c :: cs => (b, total + c) :: convertLoop (total + c) bs cs
  | _, _, _ => []

/-- `_convert_buckets`; `none` is `"+Inf"`. The boundaries are not rendered as text. -/
def convertBuckets {α : Type} (counts : List Nat) (bounds : List α) : List (Option α × Nat) :=
  convertLoop 0 (bounds.map some ++ [none]) counts

/-! ## Names -/

/-- `[a-zA-Z0-9:]` -/
def nameChar (c : Char) : Bool := isLower c || isUpper c || isDig c || c == ':'
/-- `[a-zA-Z0-9]` -/
def keyChar (c : Char) : Bool := isLower c || isUpper c || isDig c

/-- `compile("[^…]+").sub("_", s)` where `keep` is the class inside: every maximal run of other characters becomes one underscore.
`run` says that the previous character belonged to such a run. -/
def subRuns (keep : Char → Bool) : Bool → Str → Str
  | _, [] => []
  | run, c :: cs =>
    if keep c then c :: subRuns keep false cs
    else if run then subRuns keep true cs
    else '_' :: subRuns keep true cs

/-- The leading digit (_mapping.py:85–86, 102–103). `isdigit` is `str.isdigit` of one character, which knows all of Unicode. -/
def lead (isdigit : Char → Bool) : Str → Str
  | [] => []
  | c :: cs => if isdigit c then '_' :: cs else c :: cs

/-- `_sanitize_name` (_mapping.py:90–93). -/
def sanitizeName (s : Str) : Str := subRuns nameChar false s
/-- `sanitize_full_name` (_mapping.py:78–87). -/
def sanitizeFullName (isdigit : Char → Bool) (s : Str) : Str := sanitizeName (lead isdigit s)
/-- `sanitize_attribute` (_mapping.py:96–104). -/
def sanitizeAttribute (isdigit : Char → Bool) (s : Str) : Str := subRuns keyChar false (lead isdigit s)

/-! ## Units -/

/-- The text after the last `}`, and whether there is one. -/
def afterLast : Str → Option Str
  | [] => none
  | c :: cs =>
    match afterLast cs with
    | some r => some r
    | none => if c = '}' then some cs else none

/-- `compile("{.*}").sub("", line)` for one line (`.` does not match a line feed): from the first brace to the last closing one. -/
def cutLine (s : Str) : Str :=
  match cutC '{' s with
  | (_, none) => s
  | (a, some b) =>
    match afterLast b with
    | some r => a ++ r
    | none => s

/-- `_UNIT_ANNOTATION.sub("", unit)` (_mapping.py:116). -/
def cutAnnotations (s : Str) : Str := joinS ['\n'] ((splitC '\n' s).map cutLine)

/-- `_UNIT_MAPPINGS` (_mapping.py:29–63). -/
def unitMappings : Dict Str Str :=
  [("d", "days"), ("h", "hours"), ("min", "minutes"), ("s", "seconds"), ("ms", "milliseconds"), ("us", "microseconds"),
   ("ns", "nanoseconds"), ("By", "bytes"), ("KiBy", "kibibytes"), ("MiBy", "mebibytes"), ("GiBy", "gibibytes"), ("TiBy", "tibibytes"),
   ("KBy", "kilobytes"), ("MBy", "megabytes"), ("GBy", "gigabytes"), ("TBy", "terabytes"), ("m", "meters"), ("V", "volts"),
   ("A", "amperes"), ("J", "joules"), ("W", "watts"), ("g", "grams"), ("Cel", "celsius"), ("Hz", "hertz"), ("1", ""),
   ("%", "percent")].map (fun kv => (kv.1.toList, kv.2.toList))

/-- `_PER_UNIT_MAPPINGS` (_mapping.py:67–75). -/
def perMappings : Dict Str Str :=
  [("s", "second"), ("m", "minute"), ("h", "hour"), ("d", "day"), ("w", "week"), ("mo", "month"), ("y", "year")].map
    (fun kv => (kv.1.toList, kv.2.toList))

/-- The ratio branch (_mapping.py:122–129): `none` if it is not taken. -/
def ratio (unit : Str) : Option Str :=
  match cutC '/' unit with
  | (_, none) => none
  | (a, some b) =>
    let bottom := sanitizeName b
    if bottom.isEmpty then none
    else
      let top := (Dict.get? unitMappings (sanitizeName a)).getD (sanitizeName a)
      let bottom := (Dict.get? perMappings bottom).getD bottom
      some (if top.isEmpty then "per_".toList ++ bottom else top ++ "_per_".toList ++ bottom)

/-- `map_unit` (_mapping.py:107–137). -/
def mapUnit (unit : Str) : Str :=
  let u := cutAnnotations unit
  match Dict.get? unitMappings u with
  | some r => r
  | none => (ratio u).getD (stripBy (· == '_') (sanitizeName u))

/-! ## Families -/

/-- The class of a family. -/
inductive FKind where
  | counter | gauge | histogram
deriving DecidableEq

/-- `CounterMetricFamily.__name__` and so on. -/
def FKind.text : FKind → Str
  | .counter => "CounterMetricFamily".toList
  | .gauge => "GaugeMetricFamily".toList
  | .histogram => "HistogramMetricFamily".toList

/-- `metric.data`: `sum` with its monotonicity and whether it is cumulative; `exponential` an exponential histogram. -/
inductive DKind where
  | sum (monotonic cumulative : Bool)
  | gauge
  | histogram
  | exponential
deriving DecidableEq

/-- The branches of the second loop (__init__.py:277–295, 312–315, 335, 361): which family a point goes to. -/
def familyKind : DKind → Option FKind
  | .sum monotonic cumulative => if monotonic = false ∧ cumulative = true then some .gauge else some .counter
  | .gauge => some .gauge
  | .histogram => some .histogram
  | .exponential => none

variable {α ν : Type}

/-- A metric: its data points are the attributes (a dictionary with `str` keys) and the value, which for a histogram is its counts,
boundaries and sum. -/
structure PMetric (α ν : Type) where
  name : Str
  description : Str
  unit : Str
  kind : DKind
  points : List (Dict Str α × ν)

/-- A family of the client library. -/
structure Family (ν : Type) where
  kind : FKind
  name : Str
  description : Str
  unit : Str
  labels : List Str
  samples : List (List Str × ν)

/-- Insertion into a sorted list, by key. -/
def insertItem (kv : Str × α) : List (Str × α) → List (Str × α)
  | [] => [kv]
  | x :: l => if kv.1 ≤ x.1 then kv :: x :: l else x :: insertItem kv l

/-- `sorted(attributes.items())`: the keys differ, so the values are never compared. -/
def sortItems (d : Dict Str α) : List (Str × α) := d.foldr insertItem []

/-- What the translation of a point needs: `render` is `_check_value` (__init__.py:367–371), the text of an attribute value. -/
structure Env (α : Type) where
  isdigit : Char → Bool
  render : α → Str

/-- `label_keys` and `label_values` (__init__.py:238–243). -/
def labelKeys (env : Env α) (d : Dict Str α) : List Str := (sortItems d).map (fun kv => sanitizeAttribute env.isdigit kv.1)
def labelValues (env : Env α) (d : Dict Str α) : List Str := (sortItems d).map (fun kv => env.render kv.2)

/-- `metric_family_id` (__init__.py:245–254, 296–298, 316–318, 336–338). -/
def familyId (name description : Str) (keys : List Str) (unit : Str) (kind : FKind) : Str :=
  joinS ['|'] [joinS ['|'] [name, description, joinS ['%'] keys, unit], kind.text]

/-- The end of each branch (__init__.py:300–311, 320–334, 340–360): the family is created when its id is new. -/
def addSample (d : Dict Str (Family ν)) (id : Str) (fresh : Family ν) (labels : List Str) (v : ν) : Dict Str (Family ν) :=
  let f := (Dict.get? d id).getD fresh
  Dict.set d id { f with samples := f.samples ++ [(labels, v)] }

/-- One data point. -/
def addPoint (env : Env α) (m : PMetric α ν) (kind : FKind) (d : Dict Str (Family ν)) (p : Dict Str α × ν) : Dict Str (Family ν) :=
  let name := sanitizeFullName env.isdigit m.name
  let unit := mapUnit m.unit
  let keys := labelKeys env p.1
  addSample d (familyId name m.description keys unit kind) ⟨kind, name, m.description, unit, keys, []⟩ (labelValues env p.1) p.2

/-- One metric (__init__.py:226–364). The points of an exponential histogram have no `value` (269): `AttributeError`, which is `none`. The
two loops over the points are one here, which makes no difference since neither changes what the other reads. -/
def addMetric (env : Env α) (d : Dict Str (Family ν)) (m : PMetric α ν) : Option (Dict Str (Family ν)) :=
  match familyKind m.kind with
  | some k => some (m.points.foldl (addPoint env m k) d)
  | none => if m.points.isEmpty then some d else none

/-- `_translate_to_prometheus` (__init__.py:214–364) on the metrics of all resources and scopes. -/
def translate (env : Env α) : Dict Str (Family ν) → List (PMetric α ν) → Option (Dict Str (Family ν))
  | d, [] => some d
  | d, m :: l =>
    match addMetric env d m with
    | none => none
    | some d => translate env d l

/-- The loop of `collect` (__init__.py:205–211) over the queued data, `d` being the families so far (with the target info among them):
the families yielded, as they are when they are yielded, and whether an exception ended it. -/
def collectLoop (env : Env α) : Dict Str (Family ν) → List (List (PMetric α ν)) → List (Family ν) × Bool
  | _, [] => ([], false)
  | d, ms :: rest =>
    match translate env d ms with
    | none => ([], true)
    | some d => let q := collectLoop env d rest; (d.map Prod.snd ++ q.1, q.2)

end Prom
end Otel
