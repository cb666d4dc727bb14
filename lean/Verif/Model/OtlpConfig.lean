import Verif.Model.Baggage
import Verif.Model.Limits
/-!
# Configuration of the OTLP exporters
Models the constructors of the gRPC exporters (`opentelemetry-exporter-otlp-proto-grpc/.../grpc/exporter.py` 84–107, 133–171, 189–262,
`trace_exporter/__init__.py` 86–135, `metric_exporter/__init__.py` 95–151, `_log_exporter/__init__.py` 53–103) and of the HTTP exporters
(`opentelemetry-exporter-otlp-proto-http/.../http/trace_exporter/__init__.py` 66–121, 203–218 and its metric and log twins).
Strings taken from arguments and the environment are lists of characters; `str.lower()` is lower-casing of ASCII letters (the only ones that
matter for the comparisons made). `urlparse`: scheme and netloc only; the check of bracketed IPv6 addresses and the NFKC check are not modelled.
-/
namespace Otel
namespace OtlpConfig
open EnvHeaders (lowerAscii)

/-- `os.environ`. -/
abbrev Environ := Str → Option Str

inductive Signal where
  | traces | metrics | logs
deriving DecidableEq

def Signal.upper : Signal → Str
  | .traces => "TRACES".toList
  | .metrics => "METRICS".toList
  | .logs => "LOGS".toList

def Signal.path : Signal → Str
  | .traces => "v1/traces".toList
  | .metrics => "v1/metrics".toList
  | .logs => "v1/logs".toList

/-- `OTEL_EXPORTER_OTLP_X`. -/
def generic (x : String) : Str := "OTEL_EXPORTER_OTLP_".toList ++ x.toList

/-- `OTEL_EXPORTER_OTLP_TRACES_X` etc. -/
def specific (s : Signal) (x : String) : Str := "OTEL_EXPORTER_OTLP_".toList ++ s.upper ++ "_".toList ++ x.toList

/-- Python `a or b` for strings and `None`. -/
def orElse (a : Option Str) (b : Option Str) : Option Str :=
  match a with
  | some (c :: cs) => some (c :: cs)
  | _ => b

/-- `d.get(a, d.get(b))`. -/
def get2 (env : Environ) (a b : Str) : Option Str :=
  match env a with
  | some v => some v
  | none => env b

/-! ## `urlparse` -/

/-- `url.lstrip(_WHATWG_C0_CONTROL_OR_SPACE)` and the removal of tabs and line ends. -/
def urlClean (s : Str) : Str := (s.dropWhile fun c => decide (c.toNat ≤ 32)).filter fun c => !(c == '\t' || c == '\r' || c == '\n')

def isAlpha (c : Char) : Bool := isLower c || isUpper c

def schemeChar (c : Char) : Bool := isAlpha c || isDig c || c == '+' || c == '-' || c == '.'

/-- The scheme and the rest of the URL. -/
def splitScheme (s : Str) : Str × Str :=
  match cutC ':' s with
  | (c :: cs, some rest) => if isAlpha c && cs.all schemeChar then (lowerAscii (c :: cs), rest) else ([], s)
  | _ => ([], s)

/-- The netloc: what follows `//`, up to `/`, `?` or `#`. -/
def netlocOf : Str → Str
  | '/' :: '/' :: rest => rest.takeWhile fun c => !(c == '/' || c == '?' || c == '#')
  | _ => []

/-- `urlparse(s)`: scheme and netloc; `none` is `ValueError` (unbalanced brackets). -/
def urlparse (s : Str) : Option (Str × Str) :=
  let p := splitScheme (urlClean s)
  let n := netlocOf p.2
  if n.contains '[' != n.contains ']' then none else some (p.1, n)

/-! ## gRPC -/

/-- Headers given as an argument: a string, or pairs (a sequence or a dictionary). -/
inductive HeadersArg where
  | text (s : Str)
  | pairs (l : List (Str × Str))
deriving DecidableEq

/-- `headers or …`: an empty string, sequence or dictionary counts as not given. -/
def HeadersArg.given : HeadersArg → Bool
  | .text s => !s.isEmpty
  | .pairs l => !l.isEmpty

inductive Compression where
  | noCompression | deflate | gzip
deriving DecidableEq

/-- Where the TLS credentials come from. -/
inductive Credentials where
  | argument (n : Nat)
  /-- certificate, client key and client certificate files -/
  | files (cert : Str) (key chain : Option Str)
  | default
deriving DecidableEq

/-- A non-empty string, or nothing. -/
def truthy (s : Option Str) : Option Str := orElse s none

/-- `_get_credentials` (155–171) with `_load_credentials` (133–152). -/
def getCredentials (env : Environ) (creds : Option Credentials) (cert key chain : Str) : Credentials :=
  match creds with
  | some c => c
  | none =>
    match truthy (env cert) with
    | some f => .files f (truthy (env key)) (truthy (env chain))
    | none => .default

structure GrpcArgs where
  endpoint : Option Str := none
  insecure : Option Bool := none
  credentials : Option Nat := none
  headers : Option HeadersArg := none
  timeout : Option Int := none
  compression : Option Compression := none

/-- What the exporter ends up with. `credentials = none`: an insecure channel. -/
structure Grpc where
  target : Str
  credentials : Option Credentials
  metadata : List (Str × Str)
  timeout : Int
  compression : Compression
deriving DecidableEq

/-- `environ_to_compression` (99–107): `none` is an exception. -/
def environToCompression (env : Environ) (key : Str) : Option (Option Compression) :=
  match env key with
  | none => some none
  | some v => if pyStrip (lowerAscii v) = "gzip".toList then some (some .gzip) else none

/-- `environ_to_compression(key) if compression is None else compression`. -/
def pickCompression (env : Environ) (compression : Option Compression) (key : Str) : Option (Option Compression) :=
  match compression with
  | some c => some (some c)
  | none => environToCompression env key

/-- `insecure.lower() == "true"`. -/
def isTrue (v : Str) : Bool := lowerAscii v == "true".toList

/-- `int(environ_timeout) if … else None`: the outer `none` is `ValueError`. -/
def envInt (U : DigitTable) (v : Option Str) : Option (Option Int) :=
  match v with
  | none => some none
  | some s => (pyInt10 U s).map some

/-- `timeout or environ_timeout`. -/
def orInt (a b : Option Int) : Option Int :=
  match a with
  | some 0 => b
  | none => b
  | some n => some n

/-- `headers or environ.get(…)`. -/
def orHeaders (h : Option HeadersArg) (e : Option Str) : Option HeadersArg :=
  match h with
  | some a => if a.given then some a else e.map .text
  | none => e.map .text

/-- The metadata sent (223–233); `agent` is the value of `user-agent`. -/
def metadata (agent : Str) (h : Option HeadersArg) : List (Str × Str) :=
  (match h with
    | none => []
    | some (.text s) => EnvHeaders.parse s true
    | some (.pairs l) => l) ++ [("user-agent".toList, agent)]

/-- The constructor of the mixin (189–262), after the signal's own constructor. -/
def grpcBase (U : DigitTable) (agent : Str) (env : Environ) (endpoint : Option Str) (insecure : Option Bool) (credentials : Option Credentials)
    (headers : Option HeadersArg) (timeout : Option Int) (compression : Option Compression) : Option Grpc :=
  let ep := (orElse endpoint (some ((env (generic "ENDPOINT")).getD "http://localhost:4317".toList))).getD []
  match urlparse ep with
  | none => none
  | some (scheme, netloc) =>
    let insecure : Bool :=
      if scheme = "https".toList then false
      else match insecure with
        | some b => b
        | none =>
          match env (generic "INSECURE") with
          | some v => isTrue v
          | none => scheme == "http".toList
    let target := if netloc.isEmpty then ep else netloc
    let md := metadata agent (orHeaders headers (env (generic "HEADERS")))
    let t? : Option Int :=
      match orInt timeout none with
      | some n => some n
      | none =>
        match env (generic "TIMEOUT") with
        | none => some 10
        | some s => pyInt10 U s
    match t? with
    | none => none
    | some t =>
      match pickCompression env compression (generic "COMPRESSION") with
      | none => none
      | some c =>
        let creds :=
          if insecure then none
          else some (getCredentials env credentials (generic "CERTIFICATE") (generic "CLIENT_KEY") (generic "CLIENT_CERTIFICATE"))
        some ⟨target, creds, md, t, c.getD .noCompression⟩

/-- The constructors of the signals' exporters; `none` is an exception. -/
def grpc (U : DigitTable) (agent : Str) (env : Environ) (s : Signal) (a : GrpcArgs) : Option Grpc :=
  let insecure : Option Bool :=
    match a.insecure with
    | some b => some b
    | none => (env (specific s "INSECURE")).map isTrue
  let creds : Option Credentials :=
    if insecure ≠ some true ∧ (env (specific s "CERTIFICATE")).isSome then
      some (getCredentials env (a.credentials.map .argument) (specific s "CERTIFICATE") (specific s "CLIENT_KEY") (specific s "CLIENT_CERTIFICATE"))
    else a.credentials.map .argument
  match envInt U (env (specific s "TIMEOUT")) with
  | none => none
  | some et =>
    match pickCompression env a.compression (specific s "COMPRESSION") with
    | none => none
    | some c =>
      grpcBase U agent env (orElse a.endpoint (env (specific s "ENDPOINT"))) insecure creds (orHeaders a.headers (env (specific s "HEADERS")))
        (orInt a.timeout et) c

/-! ## HTTP -/

structure HttpArgs where
  endpoint : Option Str := none
  certificateFile : Option Str := none
  clientKeyFile : Option Str := none
  clientCertificateFile : Option Str := none
  headers : Option (Dict Str Str) := none
  timeout : Option Int := none
  compression : Option Compression := none

/-- `cert` of a request. -/
inductive Cert where
  | none
  | file (f : Str)
  | pair (f k : Str)
deriving DecidableEq

structure Http where
  url : Str
  /-- `none`: `verify=True` -/
  verify : Option Str
  cert : Cert
  /-- the headers, in the order they are set; a later one replaces an earlier one of the same name, whatever the case of its letters -/
  headers : List (Str × Str)
  timeout : Int
  compression : Compression
deriving DecidableEq

/-- `_append_trace_path` (215–218). -/
def appendPath (s : Signal) (endpoint : Str) : Str :=
  if endpoint.getLast? = some '/' then endpoint ++ s.path else endpoint ++ "/".toList ++ s.path

/-- `_compression_from_env` (203–212): `none` is `ValueError`. -/
def httpCompression (env : Environ) (s : Signal) : Option Compression :=
  let v := pyStrip (lowerAscii ((get2 env (specific s "COMPRESSION") (generic "COMPRESSION")).getD "none".toList))
  if v = "none".toList then some .noCompression
  else if v = "deflate".toList then some .deflate
  else if v = "gzip".toList then some .gzip
  else none

def Compression.value : Compression → Str
  | .noCompression => "none".toList
  | .deflate => "deflate".toList
  | .gzip => "gzip".toList

/-- `timeout or int(environ.get(…, environ.get(…, 10)))` (107–112). -/
def httpTimeout (U : DigitTable) (env : Environ) (s : Signal) (timeout : Option Int) : Option Int :=
  match orInt timeout none with
  | some n => some n
  | none =>
    match get2 env (specific s "TIMEOUT") (generic "TIMEOUT") with
    | none => some 10
    | some v => pyInt10 U v

/-- `compression or _compression_from_env()` (113). -/
def pickHttpCompression (env : Environ) (s : Signal) (compression : Option Compression) : Option Compression :=
  match compression with
  | some c => some c
  | none => httpCompression env s

/-- The headers given (100–106). -/
def httpHeaders (env : Environ) (s : Signal) (headers : Option (Dict Str Str)) : List (Str × Str) :=
  match headers with
  | some (h :: hs) => h :: hs
  | _ => EnvHeaders.parse ((get2 env (specific s "HEADERS") (generic "HEADERS")).getD []) true

/-- The constructors of the HTTP exporters (66–121); `none` is an exception. -/
def http (U : DigitTable) (agent : Str) (env : Environ) (s : Signal) (a : HttpArgs) : Option Http :=
  let url := (orElse a.endpoint (some ((env (specific s "ENDPOINT")).getD (appendPath s ((env (generic "ENDPOINT")).getD "http://localhost:4318/".toList))))).getD []
  let verify := orElse a.certificateFile (get2 env (specific s "CERTIFICATE") (generic "CERTIFICATE"))
  let key := orElse a.clientKeyFile (get2 env (specific s "CLIENT_KEY") (generic "CLIENT_KEY"))
  let chain := orElse a.clientCertificateFile (get2 env (specific s "CLIENT_CERTIFICATE") (generic "CLIENT_CERTIFICATE"))
  let cert := match truthy chain, truthy key with
    | some f, some k => .pair f k
    | some f, none => .file f
    | none, _ => .none
  let hs := httpHeaders env s a.headers
  match httpTimeout U env s a.timeout with
  | none => none
  | some t =>
    match pickHttpCompression env s a.compression with
    | none => none
    | some c =>
      some ⟨url, verify, cert,
        hs ++ [("Content-Type".toList, "application/x-protobuf".toList), ("User-Agent".toList, agent)] ++
          (if c = .noCompression then [] else [("Content-Encoding".toList, c.value)]), t, c⟩

end OtlpConfig
end Otel
