import Verif.Model.Py
/-!
# Log severities
Models `std_to_otel` and `_STD_TO_OTEL` (`opentelemetry-api/src/opentelemetry/_logs/severity/__init__.py`, bottom half), and the
severity text of `LoggingHandler._translate` (`opentelemetry-sdk/src/opentelemetry/sdk/_logs/_internal/__init__.py` 533–535).
-/
namespace Otel
namespace Severity

/-- `SeverityNumber`: 0 is `UNSPECIFIED`, 1–4 `TRACE`, 5–8 `DEBUG`, 9–12 `INFO`, 13–16 `WARN`, 17–20 `ERROR`, 21–24 `FATAL`. -/
abbrev Number := Nat

/-- `_STD_TO_OTEL`. -/
def stdToOtelMap : Dict Int Number :=
  [(10, 5), (11, 6), (12, 7), (13, 8), (14, 8), (15, 8), (16, 8), (17, 8), (18, 8), (19, 8),
   (20, 9), (21, 10), (22, 11), (23, 12), (24, 12), (25, 12), (26, 12), (27, 12), (28, 12), (29, 12),
   (30, 13), (31, 14), (32, 15), (33, 16), (34, 16), (35, 16), (36, 16), (37, 16), (38, 16), (39, 16),
   (40, 17), (41, 18), (42, 19), (43, 20), (44, 20), (45, 20), (46, 20), (47, 20), (48, 20), (49, 20),
   (50, 21), (51, 22), (52, 23), (53, 24)]

/-- `std_to_otel`: `none` is `KeyError`. -/
def stdToOtel (levelno : Int) : Option Number :=
  if levelno < 10 then some 0
  else if 53 < levelno then some 24
  else Dict.get? stdToOtelMap levelno

/-- `level_name` (533–535). -/
def severityText (levelname : Str) : Str := if levelname = "WARNING".toList then "WARN".toList else levelname

end Severity
end Otel
