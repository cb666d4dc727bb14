import Verif.Model.Rounding
/-!
# Times converted through floats
The places where the code turns seconds (Python `float`s) into nanoseconds and back: `LoggingHandler` (`opentelemetry-sdk/src/opentelemetry/sdk/_logs/_internal/__init__.py` 506), the OpenTracing
shim (`shim/opentelemetry-opentracing-shim/src/opentelemetry/shim/opentracing_shim/util.py` 20–43), the OpenCensus shim
(`shim/opentelemetry-opencensus-shim/src/opentelemetry/shim/opencensus/_shim_span.py` 48–59) and the texts of the console exporters and `to_json`
(`opentelemetry-sdk/src/opentelemetry/sdk/util/__init__.py` 24–29). Floats are IEEE 754 doubles (`Verif.Model.Rounding`: a float is the rational it denotes, `rn` rounds to the nearest, exponents are not bounded above).
The calendar is left out: a date and time is its number of microseconds after the epoch, in UTC (that the OpenCensus shim reads it as local time is `C85_message_time_violated`). Times
are after the epoch where `datetime` is involved.
-/
namespace Otel
namespace Clock
open Rounding

/-- `int(x)` of a float: towards zero. -/
def trunc (x : ℚ) : ℤ := if 0 ≤ x then ⌊x⌋ else -⌊-x⌋

/-- `time_seconds_to_ns` (opentracing_shim/util.py 20–30) and `int(record.created * 1e9)` (_logs/_internal/__init__.py 506), of a float: `1e9` is exact. -/
def toNs (seconds : ℚ) : ℤ := trunc (rn (seconds * 1000000000))

/-- `time_seconds_from_ns` (opentracing_shim/util.py 33–43): dividing an `int` by a `float` converts it first. -/
def fromNs (ns : ℤ) : ℚ := rn (rn ns / 1000000000)

/-- `datetime.fromtimestamp(seconds, tz=utc)` as microseconds after the epoch: the fraction of the second is split off exactly, multiplied by a million, and rounded half to even
(CPython's `_PyTime_DoubleToDenominator`). -/
def micros (seconds : ℚ) : ℤ := ⌊seconds⌋ * 1000000 + roundEven (rn ((seconds - ⌊seconds⌋) * 1000000))

/-- What `ns_to_iso_str` (sdk/util/__init__.py 24–29) shows, in microseconds after the epoch: the format has six digits after the second. -/
def shown (ns : ℤ) : ℤ := micros (fromNs ns)

/-- `datetime.timestamp()` of `sec` seconds and `us` microseconds: CPython adds the seconds and `us / 1e6`. -/
def timestamp (sec us : ℤ) : ℚ := rn (sec + rn (us / 1000000))

/-- `_opencensus_time_to_nanos` (_shim_span.py 48–59) of a text that means `sec` seconds and `us` microseconds. `round` rounds half to even. -/
def ocNs (sec us : ℤ) : ℤ := roundEven (rn (timestamp sec us * 1000000000))

end Clock
end Otel
