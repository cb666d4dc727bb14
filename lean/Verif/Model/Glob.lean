import Verif.Model.Views
import Verif.Model.Meter
/-!
# `fnmatch` patterns without brackets
`View._match` calls `fnmatch(instrument.name, self._instrument_name)` (view.py:176–183). On POSIX `os.path.normcase` is the identity, so
the comparison is case-sensitive. Simplification: patterns without `[`; with it the standard library has character classes, which are not
modelled.
-/
namespace Otel
namespace Metrics

/-- Match `s` against `[some tail of the rest]`: `.*` followed by `k`. -/
def starMatch (k : Str → Bool) : Str → Bool
  | [] => k []
  | c :: s => k (c :: s) || starMatch k s

/-- `re.compile(fnmatch.translate(pattern)).match(name)` for a pattern without `[`: `*` is `.*`, `?` is `.`, everything else is escaped
(CPython `fnmatch.py`; the compiled pattern is anchored at both ends and has `DOTALL`). -/
def glob : Str → Str → Bool
  | [], s => s.isEmpty
  | c :: p, s =>
    if c = '*' then starMatch (fun t => glob p t) s
    else match s with
      | [] => false
      | d :: s => (c == '?' || c == d) && glob p s

/-- `fnmatch(name, pattern)` in the argument order of the code. -/
def fnmatch (name pattern : Str) : Bool := glob pattern name

/-- The name an SDK instrument gets (instrument.py:74 and 107): the given one in lower case. -/
def instrName (given : Str) : Str := Meter.lower given

end Metrics
end Otel
