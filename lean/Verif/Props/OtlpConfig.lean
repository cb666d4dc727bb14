import Verif.Model.OtlpConfig
import Verif.Lemmas.Dict
import Verif.Lemmas.Str
/-!
# C79: configuration of the OTLP exporters
-/
namespace Otel
namespace OtlpConfig
open EnvHeaders (lowerAscii)

/-! ## Specification -/

/-- The first that is given and not empty. -/
def firstNonEmpty : List (Option Str) → Option Str
  | [] => none
  | some (c :: s) :: _ => some (c :: s)
  | _ :: l => firstNonEmpty l

/-- The endpoint a gRPC exporter uses. -/
def grpcEndpoint (env : Environ) (s : Signal) (a : GrpcArgs) : Str :=
  (firstNonEmpty [a.endpoint, env (specific s "ENDPOINT")]).getD ((env (generic "ENDPOINT")).getD "http://localhost:4317".toList)

/-- The `insecure` setting: the argument, the signal's variable, the common variable. -/
def insecureSetting (env : Environ) (s : Signal) (a : GrpcArgs) : Option Bool :=
  (a.insecure.or ((env (specific s "INSECURE")).map isTrue)).or ((env (generic "INSECURE")).map isTrue)

/-- Is TLS used? `https` always means yes. -/
def tls (scheme : Str) (insecure : Option Bool) : Bool :=
  if scheme = "https".toList then true
  else match insecure with
    | some i => !i
    | none => scheme ≠ "http".toList

/-- A scheme as in RFC 3986. -/
def Scheme (s : Str) : Prop := ∃ c cs, s = c :: cs ∧ isAlpha c = true ∧ ∀ d ∈ cs, schemeChar d = true

/-- A host (and port) in a URL: no delimiters, brackets or line ends. -/
def Host (s : Str) : Prop := s ≠ [] ∧ ∀ c ∈ s, c ≠ '/' ∧ c ≠ '?' ∧ c ≠ '#' ∧ c ≠ '[' ∧ c ≠ ']' ∧ c ≠ '\t' ∧ c ≠ '\r' ∧ c ≠ '\n'

/-! ## `urlparse` -/

theorem alpha_scheme (c : Char) (h : isAlpha c = true) : schemeChar c = true := by simp [schemeChar, h]

theorem scheme_ne (c d : Char) (h : schemeChar c = true) (hd : schemeChar d = false) : c ≠ d := by
  rintro rfl; rw [h] at hd; cases hd

theorem scheme_gt (c : Char) (h : schemeChar c = true) : 32 < c.toNat := by
  simp only [schemeChar, isAlpha, isLower, isUpper, isDig, inRange, Bool.or_eq_true, Bool.and_eq_true, decide_eq_true_eq, beq_iff_eq] at h
  rcases h with (((h | h) | h) | h) | h
  · rcases h with h | h <;> omega
  · omega
  · subst h; decide
  · subst h; decide
  · subst h; decide

def keepChar (c : Char) : Bool := !(c == '\t' || c == '\r' || c == '\n')

theorem urlClean_cons (c : Char) (s : Str) (h : 32 < c.toNat) : urlClean (c :: s) = c :: s.filter keepChar := by
  unfold urlClean
  rw [List.dropWhile_cons]
  have h1 : decide (c.toNat ≤ 32) = false := by simp; omega
  have h2 : keepChar c = true := by
    unfold keepChar
    have : ∀ d : Char, d.toNat ≤ 32 → c ≠ d := by rintro d hd rfl; omega
    simp [this '\t' (by decide), this '\r' (by decide), this '\n' (by decide)]
  simp only [h1, Bool.false_eq_true, if_false]
  rw [List.filter_cons]
  simp only [keepChar] at h2
  rw [if_pos h2]; rfl

theorem splitScheme_of (c : Char) (cs rest : Str) (h : isAlpha c = true) (hs : ∀ d ∈ cs, schemeChar d = true) :
    splitScheme (c :: cs ++ ':' :: rest) = (lowerAscii (c :: cs), rest) := by
  have hn : ':' ∉ c :: cs := by
    intro hm
    rcases List.mem_cons.1 hm with hm | hm
    · exact scheme_ne c ':' (alpha_scheme c h) (by decide) hm.symm
    · exact scheme_ne ':' ':' (hs _ hm) (by decide) rfl
  unfold splitScheme
  rw [cutC_append ':' (c :: cs) rest hn]
  simp only
  rw [if_pos]
  simp only [h, Bool.true_and, List.all_eq_true]
  exact hs

theorem urlparse_url (sch host rest : Str) (hs : Scheme sch) (hh : Host host) (hr : ∀ c, rest.head? = some c → c = '/' ∨ c = '?' ∨ c = '#') :
    urlparse (sch ++ "://".toList ++ host ++ rest) = some (lowerAscii sch, host) := by
  obtain ⟨c, cs, rfl, h1, h2⟩ := hs
  have hkeep : ∀ d : Char, 32 < d.toNat → keepChar d = true := by
    intro d hd
    unfold keepChar
    have : ∀ e : Char, e.toNat ≤ 32 → d ≠ e := by rintro e he rfl; omega
    simp [this '\t' (by decide), this '\r' (by decide), this '\n' (by decide)]
  have hclean : urlClean (c :: cs ++ "://".toList ++ host ++ rest) = c :: cs ++ ':' :: '/' :: '/' :: (host ++ rest.filter keepChar) := by
    rw [show c :: cs ++ "://".toList ++ host ++ rest = c :: (cs ++ ':' :: '/' :: '/' :: (host ++ rest)) by simp]
    rw [urlClean_cons c _ (scheme_gt c (alpha_scheme c h1))]
    rw [List.filter_append, List.filter_eq_self.2 (fun d hd => hkeep d (scheme_gt d (h2 d hd)))]
    have h3 : host.filter keepChar = host := List.filter_eq_self.2 (by
      intro d hd
      have := hh.2 d hd
      simp [keepChar, this])
    rw [List.filter_cons_of_pos (by decide), List.filter_cons_of_pos (by decide), List.filter_cons_of_pos (by decide), List.filter_append, h3]
    simp
  have hnet : netlocOf ('/' :: '/' :: (host ++ rest.filter keepChar)) = host := by
    simp only [netlocOf]
    rw [List.takeWhile_append_of_pos (by
      intro d hd
      have := hh.2 d hd
      simp [this])]
    have : (rest.filter keepChar).takeWhile (fun c => !(c == '/' || c == '?' || c == '#')) = [] := by
      cases rest with
      | nil => rfl
      | cons d ds =>
        have hd := hr d rfl
        have hk : keepChar d = true := by rcases hd with rfl | rfl | rfl <;> decide
        rw [List.filter_cons_of_pos hk, List.takeWhile_cons_of_neg (by rcases hd with rfl | rfl | rfl <;> simp)]
    rw [this, List.append_nil]
  unfold urlparse
  rw [hclean, splitScheme_of c cs _ h1 h2]
  simp only
  rw [hnet]
  have hb : host.contains '[' = false ∧ host.contains ']' = false := by
    constructor
    · rw [Bool.eq_false_iff]; intro hc; rw [List.contains_iff_mem] at hc; exact (hh.2 _ hc).2.2.2.1 rfl
    · rw [Bool.eq_false_iff]; intro hc; rw [List.contains_iff_mem] at hc; exact (hh.2 _ hc).2.2.2.2.1 rfl
  simp only [hb.1, hb.2, bne_self_eq_false, Bool.false_eq_true, if_false]

/-- Without `/` there is no netloc. -/
theorem urlparse_plain (s : Str) (h : ∀ c ∈ s, c ≠ '/') : urlparse s = some ((splitScheme (urlClean s)).1, []) := by
  have hsub : ∀ c ∈ urlClean s, c ∈ s := by
    intro c hc
    unfold urlClean at hc
    exact (List.dropWhile_suffix _).sublist.subset (List.mem_filter.1 hc).1
  have hrest : ∀ t : Str, (∀ c ∈ t, c ∈ s) → netlocOf (splitScheme t).2 = [] := by
    intro t ht
    have h2 : ∀ c ∈ (splitScheme t).2, c ∈ t := by
      unfold splitScheme
      split
      · rename_i c cs rest hcut
        split
        · obtain ⟨hcs, _⟩ := cutC_some ':' t _ _ hcut
          intro d hd
          rw [hcs]
          simp [hd]
        · exact fun _ h => h
      · exact fun _ h => h
    generalize (splitScheme t).2 = u at h2
    unfold netlocOf
    split
    · exact absurd rfl (h '/' (ht _ (h2 _ (by simp))))
    · rfl
  unfold urlparse
  simp only [hrest _ hsub]
  rfl

/-! ## gRPC -/

theorem orElse_eq (a b : Option Str) (d : Str) : (orElse (orElse a b) (some d)).getD [] = (firstNonEmpty [a, b]).getD d := by
  rcases a with _ | _ | _ <;> rcases b with _ | _ | _ <;> rfl

/-- Where the TLS credentials of a secure channel come from: the argument; else the signal's certificate variable, if it is set (an empty one
means the system's certificates) and `insecure` is not set to true for this signal; else the common certificate variable, if it is set and not
empty; else the system's certificates. -/
def credentialsSource (env : Environ) (s : Signal) (a : GrpcArgs) : Credentials :=
  match a.credentials, env (specific s "CERTIFICATE"), env (generic "CERTIFICATE") with
  | some n, _, _ => .argument n
  | none, some cert, g =>
    if a.insecure.or ((env (specific s "INSECURE")).map isTrue) = some true then fromFile g (generic "CLIENT_KEY") (generic "CLIENT_CERTIFICATE")
    else fromFile (some cert) (specific s "CLIENT_KEY") (specific s "CLIENT_CERTIFICATE")
  | none, none, g => fromFile g (generic "CLIENT_KEY") (generic "CLIENT_CERTIFICATE")
where
  /-- The files named by the three variables, if the certificate is named. -/
  fromFile (cert : Option Str) (key chain : Str) : Credentials :=
    match firstNonEmpty [cert] with
    | some f => .files f (firstNonEmpty [env key]) (firstNonEmpty [env chain])
    | none => .default

theorem truthy_eq (a : Option Str) : truthy a = firstNonEmpty [a] := by rcases a with _ | _ | _ <;> rfl

theorem credentials_eq (env : Environ) (s : Signal) (a : GrpcArgs) :
    getCredentials env
      (if a.insecure.or ((env (specific s "INSECURE")).map isTrue) ≠ some true ∧ (env (specific s "CERTIFICATE")).isSome = true then
        some (getCredentials env (a.credentials.map .argument) (specific s "CERTIFICATE") (specific s "CLIENT_KEY") (specific s "CLIENT_CERTIFICATE"))
      else a.credentials.map .argument) (generic "CERTIFICATE") (generic "CLIENT_KEY") (generic "CLIENT_CERTIFICATE") =
    credentialsSource env s a := by
  unfold credentialsSource credentialsSource.fromFile getCredentials
  simp only [truthy_eq]
  generalize a.insecure.or ((env (specific s "INSECURE")).map isTrue) = i
  generalize firstNonEmpty [env (generic "CLIENT_KEY")] = k1
  generalize firstNonEmpty [env (generic "CLIENT_CERTIFICATE")] = k2
  generalize firstNonEmpty [env (specific s "CLIENT_KEY")] = k3
  generalize firstNonEmpty [env (specific s "CLIENT_CERTIFICATE")] = k4
  cases a.credentials with
  | some n => simp only [Option.map_some, ite_self]
  | none =>
    cases env (specific s "CERTIFICATE") with
    | none => rw [if_neg (by simp)]; rfl
    | some v =>
      by_cases h : i = some true
      · rw [if_neg (by simp [h])]; simp only [h, if_true]; rfl
      · rw [if_pos (by simp [h])]; simp only [h, if_false]; rfl

theorem insecure_or (env : Environ) (s : Signal) (a : GrpcArgs) :
    (match a.insecure with
      | some b => some b
      | none => (env (specific s "INSECURE")).map isTrue) = a.insecure.or ((env (specific s "INSECURE")).map isTrue) := by
  cases a.insecure <;> rfl

theorem tls_eq (scheme : Str) (i : Option Bool) (g : Option Str) :
    (if scheme = "https".toList then false
      else match i with
        | some b => b
        | none =>
          match g with
          | some v => isTrue v
          | none => scheme == "http".toList) = !tls scheme (i.or (g.map isTrue)) := by
  unfold tls
  by_cases hs : scheme = "https".toList
  · rw [if_pos hs, if_pos hs]; rfl
  · rw [if_neg hs, if_neg hs]
    rcases i with _ | b
    · rcases g with _ | v
      · by_cases hh : scheme = "http".toList
        · simp only [hh]; rfl
        · show (scheme == "http".toList) = !decide (scheme ≠ "http".toList)
          rw [beq_eq_false_iff_ne.2 hh, decide_eq_true hh]; rfl
      · simp
    · simp

/-- What the exporter is made of. -/
theorem grpc_fields (U : DigitTable) (agent : Str) (env : Environ) (s : Signal) (a : GrpcArgs) (c : Grpc) (h : grpc U agent env s a = some c) :
    ∃ scheme netloc, urlparse (grpcEndpoint env s a) = some (scheme, netloc) ∧
      c.target = (if netloc.isEmpty then grpcEndpoint env s a else netloc) ∧
      c.credentials = if tls scheme (insecureSetting env s a) then some (credentialsSource env s a) else none := by
  unfold grpc at h
  simp only at h
  split at h
  · cases h
  · split at h
    · cases h
    · unfold grpcBase at h
      simp only [orElse_eq] at h
      split at h
      · cases h
      · rename_i scheme netloc hu
        split at h
        · cases h
        · split at h
          · cases h
          · cases h
            refine ⟨scheme, netloc, hu, rfl, ?_⟩
            refine Eq.trans (b := if (!tls scheme (insecureSetting env s a)) = true then none else some (credentialsSource env s a)) ?_ ?_
            · unfold insecureSetting
              rw [← tls_eq, ← credentials_eq, ← insecure_or]
              rfl
            · cases tls scheme (insecureSetting env s a) <;> rfl

/-- **C79** gRPC: the endpoint is the argument, else the signal's variable, else the common variable, else `http://localhost:4317`. If it is a
URL, the channel goes to its host and port, whatever path follows; TLS is used exactly if the scheme is `https`, or `insecure` is set to
something else than true, or it is set nowhere and the scheme is not `http`. -/
theorem C79_grpc_url (U : DigitTable) (agent : Str) (env : Environ) (s : Signal) (a : GrpcArgs) (c : Grpc) (h : grpc U agent env s a = some c)
    (sch host rest : Str) (hs : Scheme sch) (hh : Host host) (hr : ∀ c, rest.head? = some c → c = '/' ∨ c = '?' ∨ c = '#')
    (he : grpcEndpoint env s a = sch ++ "://".toList ++ host ++ rest) :
    c.target = host ∧ c.credentials = if tls (lowerAscii sch) (insecureSetting env s a) then some (credentialsSource env s a) else none := by
  obtain ⟨scheme, netloc, h1, h2, h3⟩ := grpc_fields U agent env s a c h
  rw [he, urlparse_url sch host rest hs hh hr] at h1
  cases h1
  refine ⟨?_, h3⟩
  rw [h2, if_neg]
  simpa using hh.1

/-- **C79** gRPC: an endpoint `host:port` without scheme is used as it is, with TLS unless `insecure` is set to true. -/
theorem C79_grpc_plain (U : DigitTable) (agent : Str) (env : Environ) (s : Signal) (a : GrpcArgs) (c : Grpc) (h : grpc U agent env s a = some c)
    (host port : Str) (hs : Scheme host) (hp : ∀ d ∈ port, d ≠ '/') (hn : lowerAscii host ≠ "http".toList ∧ lowerAscii host ≠ "https".toList)
    (he : grpcEndpoint env s a = host ++ ":".toList ++ port) :
    c.target = host ++ ":".toList ++ port ∧ c.credentials = if insecureSetting env s a = some true then none else some (credentialsSource env s a) := by
  obtain ⟨scheme, netloc, h1, h2, h3⟩ := grpc_fields U agent env s a c h
  obtain ⟨x, xs, rfl, e1, e2⟩ := hs
  have hns : ∀ d ∈ (x :: xs) ++ ":".toList ++ port, d ≠ '/' := by
    intro d hd
    simp only [List.mem_append] at hd
    rcases hd with (hd | hd) | hd
    · rcases List.mem_cons.1 hd with rfl | hd
      · exact scheme_ne d '/' (alpha_scheme d e1) (by decide)
      · exact scheme_ne d '/' (e2 d hd) (by decide)
    · have : d = ':' := by simpa using hd
      subst this; decide
    · exact hp d hd
  rw [he, urlparse_plain _ hns] at h1
  have hkeep : ∀ d ∈ xs, keepChar d = true := by
    intro d hd
    have hg := scheme_gt d (e2 d hd)
    unfold keepChar
    have : ∀ e : Char, e.toNat ≤ 32 → d ≠ e := by rintro e he rfl; omega
    simp [this '\t' (by decide), this '\r' (by decide), this '\n' (by decide)]
  have hclean : urlClean (x :: xs ++ ":".toList ++ port) = x :: xs ++ ':' :: port.filter keepChar := by
    rw [show x :: xs ++ ":".toList ++ port = x :: (xs ++ ':' :: port) by simp]
    rw [urlClean_cons x _ (scheme_gt x (alpha_scheme x e1)), List.filter_append, List.filter_eq_self.2 hkeep, List.filter_cons_of_pos (by decide)]
    simp
  rw [hclean, splitScheme_of x xs _ e1 e2] at h1
  simp only [Option.some.injEq, Prod.mk.injEq] at h1
  obtain ⟨rfl, rfl⟩ := h1
  refine ⟨by rw [h2]; simp [he], ?_⟩
  rw [h3]
  unfold tls
  rw [if_neg hn.2]
  cases insecureSetting env s a with
  | none =>
    show (if decide (lowerAscii (x :: xs) ≠ "http".toList) = true then _ else _) = _
    rw [decide_eq_true hn.1]; rfl
  | some b => cases b <;> rfl

/-- **C79** `https`, in any case, is never downgraded, whatever the arguments and variables say. -/
theorem C79_https_secure (U : DigitTable) (agent : Str) (env : Environ) (s : Signal) (a : GrpcArgs) (c : Grpc) (h : grpc U agent env s a = some c)
    (sch host rest : Str) (hs : lowerAscii sch = "https".toList) (hss : Scheme sch) (hh : Host host)
    (hr : ∀ c, rest.head? = some c → c = '/' ∨ c = '?' ∨ c = '#') (he : grpcEndpoint env s a = sch ++ "://".toList ++ host ++ rest) :
    c.credentials.isSome = true := by
  rw [(C79_grpc_url U agent env s a c h sch host rest hss hh hr he).2, hs]; rfl

/-- The first that is set and not zero. -/
def firstNonZero : List (Option Int) → Option Int
  | [] => none
  | some n :: l => if n = 0 then firstNonZero l else some n
  | none :: l => firstNonZero l

theorem orInt_eq (a b : Option Int) : orInt (orInt a b) none = firstNonZero [a, b] := by
  unfold firstNonZero firstNonZero firstNonZero
  rcases a with _ | a
  · rcases b with _ | b
    · rfl
    · by_cases hb : b = 0
      · subst hb; rfl
      · simp only [orInt, hb, if_false]
  · by_cases ha : a = 0
    · subst ha
      rcases b with _ | b
      · rfl
      · by_cases hb : b = 0
        · subst hb; rfl
        · simp only [orInt, hb, if_false, if_true]
    · simp only [orInt, ha, if_false]

/-- **C79** gRPC time-out: the argument, else the signal's variable (zero counts as not given), else the common variable, else ten seconds. -/
theorem C79_grpc_timeout (U : DigitTable) (agent : Str) (env : Environ) (s : Signal) (a : GrpcArgs) (c : Grpc) (h : grpc U agent env s a = some c) :
    (match firstNonZero [a.timeout, (env (specific s "TIMEOUT")).bind (pyInt10 U)] with
      | some n => c.timeout = n
      | none => (env (generic "TIMEOUT") = none ∧ c.timeout = 10) ∨ ∃ v, env (generic "TIMEOUT") = some v ∧ pyInt10 U v = some c.timeout) := by
  unfold grpc at h
  simp only at h
  split at h
  · cases h
  · rename_i et het
    have heq : et = (env (specific s "TIMEOUT")).bind (pyInt10 U) := by
      unfold envInt at het
      cases hv : env (specific s "TIMEOUT") with
      | none => rw [hv] at het; cases het; rfl
      | some v =>
        rw [hv] at het
        simp only [Option.map_eq_some_iff] at het
        obtain ⟨n, h1, h2⟩ := het
        simp [h1, ← h2]
    rw [← heq, ← orInt_eq]
    split at h
    · cases h
    · unfold grpcBase at h
      simp only at h
      split at h
      · cases h
      · split at h
        · cases h
        · rename_i t ht
          split at h
          · cases h
          · cases h
            simp only
            cases ho : orInt (orInt a.timeout et) none with
            | some n => rw [ho] at ht; cases ht; rfl
            | none =>
              rw [ho] at ht
              cases hg : env (generic "TIMEOUT") with
              | none => rw [hg] at ht; cases ht; exact .inl ⟨rfl, rfl⟩
              | some v => rw [hg] at ht; exact .inr ⟨v, rfl, ht⟩

/-- The headers given: the argument if it is not empty, else the signal's variable if it is set and not empty, else the common variable. -/
def grpcHeaders (env : Environ) (s : Signal) (a : GrpcArgs) : List (Str × Str) :=
  match a.headers with
  | some (.pairs (p :: l)) => p :: l
  | some (.text (c :: t)) => EnvHeaders.parse (c :: t) true
  | _ =>
    match firstNonEmpty [env (specific s "HEADERS")] with
    | some t => EnvHeaders.parse t true
    | none => EnvHeaders.parse ((env (generic "HEADERS")).getD []) true

/-- **C79** gRPC metadata: the headers given, in order, then the user agent. -/
theorem C79_grpc_headers (U : DigitTable) (agent : Str) (env : Environ) (s : Signal) (a : GrpcArgs) (c : Grpc) (h : grpc U agent env s a = some c) :
    c.metadata = grpcHeaders env s a ++ [("user-agent".toList, agent)] := by
  have hm : c.metadata = metadata agent (orHeaders (orHeaders a.headers (env (specific s "HEADERS"))) (env (generic "HEADERS"))) := by
    unfold grpc at h
    simp only at h
    split at h
    · cases h
    · split at h
      · cases h
      · unfold grpcBase at h
        simp only at h
        split at h
        · cases h
        · split at h
          · cases h
          · split at h
            · cases h
            · cases h; rfl
  rw [hm]
  unfold metadata grpcHeaders
  congr 1
  have hnil : EnvHeaders.parse [] true = [] := by decide
  rcases a.headers with _ | ⟨_ | _⟩ | ⟨_ | _⟩ <;> rcases env (specific s "HEADERS") with _ | _ | _ <;> rcases env (generic "HEADERS") with _ | _ | _ <;>
    simp [orHeaders, HeadersArg.given, firstNonEmpty, hnil]

/-- The compression a gRPC exporter uses, where nothing is raised: the argument, else `gzip` if the signal's variable is set, or the common one. -/
theorem C79_grpc_compression (U : DigitTable) (agent : Str) (env : Environ) (s : Signal) (a : GrpcArgs) (c : Grpc) (h : grpc U agent env s a = some c) :
    c.compression = match a.compression, env (specific s "COMPRESSION"), env (generic "COMPRESSION") with
      | some k, _, _ => k
      | none, none, none => .noCompression
      | none, _, _ => .gzip := by
  unfold grpc at h
  simp only at h
  split at h
  · cases h
  · split at h
    · cases h
    · rename_i c1 hc1
      unfold grpcBase at h
      simp only at h
      split at h
      · cases h
      · split at h
        · cases h
        · split at h
          · cases h
          · rename_i c2 hc2
            cases h
            simp only
            cases ha : a.compression with
            | some k => rw [ha] at hc1; cases hc1; cases hc2; rfl
            | none =>
              rw [ha] at hc1
              unfold pickCompression environToCompression at hc1 hc2
              simp only at hc1
              cases h1 : env (specific s "COMPRESSION") with
              | none =>
                rw [h1] at hc1; cases hc1
                simp only at hc2
                cases h2 : env (generic "COMPRESSION") with
                | none => rw [h2] at hc2; cases hc2; rfl
                | some v =>
                  rw [h2] at hc2; simp only at hc2
                  split at hc2
                  · cases hc2; rfl
                  · cases hc2
              | some v =>
                rw [h1] at hc1; simp only at hc1
                split at hc1
                · cases hc1; cases hc2; rfl
                · cases hc1

/-- **C79** gRPC: the constructor raises exactly if the endpoint has an unbalanced bracket in its host; or the signal's time-out is set but not an
integer, even if it is not needed; or no (non-zero) time-out is given and the common one is set but not an integer; or no compression is given and
the variable consulted for it (the signal's; the common one if the signal's is not set) is set to something else than `gzip`. -/
theorem C79_grpc_raises_iff (U : DigitTable) (agent : Str) (env : Environ) (s : Signal) (a : GrpcArgs) :
    grpc U agent env s a = none ↔
      urlparse (grpcEndpoint env s a) = none ∨
      (∃ v, env (specific s "TIMEOUT") = some v ∧ pyInt10 U v = none) ∨
      (firstNonZero [a.timeout, (env (specific s "TIMEOUT")).bind (pyInt10 U)] = none ∧ ∃ v, env (generic "TIMEOUT") = some v ∧ pyInt10 U v = none) ∨
      (a.compression = none ∧ ∃ v, get2 env (specific s "COMPRESSION") (generic "COMPRESSION") = some v ∧ pyStrip (lowerAscii v) ≠ "gzip".toList) := by
  have hc : (match pickCompression env a.compression (specific s "COMPRESSION") with
      | none => (none : Option (Option Compression))
      | some c => pickCompression env c (generic "COMPRESSION")) = none ↔
      (a.compression = none ∧ ∃ v, get2 env (specific s "COMPRESSION") (generic "COMPRESSION") = some v ∧ pyStrip (lowerAscii v) ≠ "gzip".toList) := by
    unfold pickCompression environToCompression get2
    cases a.compression with
    | some c => simp
    | none =>
      cases env (specific s "COMPRESSION") with
      | none =>
        cases env (generic "COMPRESSION") with
        | none => simp
        | some v => simp only; by_cases h : pyStrip (lowerAscii v) = "gzip".toList <;> simp only [h, if_true, if_false] <;> simp [-String.reduceToList, h]
      | some v => simp only; by_cases h : pyStrip (lowerAscii v) = "gzip".toList <;> simp only [h, if_true, if_false] <;> simp [-String.reduceToList, h]
  rw [← hc]
  have hbase : ∀ (et : Option Bool × Option Credentials × Option HeadersArg × Option Int) (c : Option Compression), grpcBase U agent env (orElse a.endpoint (env (specific s "ENDPOINT"))) et.1 et.2.1 et.2.2.1 et.2.2.2 c = none ↔
      urlparse (grpcEndpoint env s a) = none ∨
      (orInt et.2.2.2 none = none ∧ ∃ v, env (generic "TIMEOUT") = some v ∧ pyInt10 U v = none) ∨
      pickCompression env c (generic "COMPRESSION") = none := by
    rintro ⟨i, cr, hd, t⟩ c
    unfold grpcBase grpcEndpoint
    simp only [orElse_eq]
    generalize pickCompression env c (generic "COMPRESSION") = k
    cases urlparse ((firstNonEmpty [a.endpoint, env (specific s "ENDPOINT")]).getD ((env (generic "ENDPOINT")).getD "http://localhost:4317".toList)) with
    | none => simp
    | some p =>
      simp only [reduceCtorEq, false_or]
      cases orInt t none with
      | some n =>
        cases k with
        | none => exact iff_of_true rfl (.inr rfl)
        | some k => exact iff_of_false nofun (by rintro (⟨h, _⟩ | h) <;> cases h)
      | none =>
        cases env (generic "TIMEOUT") with
        | none =>
          cases k with
          | none => exact iff_of_true rfl (.inr rfl)
          | some k => exact iff_of_false nofun (by rintro (⟨_, _, h, _⟩ | h) <;> cases h)
        | some v =>
          cases hv : pyInt10 U v with
          | none => exact iff_of_true (by simp only [hv]) (.inl ⟨rfl, v, rfl, hv⟩)
          | some n =>
            cases k with
            | none => exact iff_of_true (by simp only [hv]) (.inr rfl)
            | some k => exact iff_of_false (by simp only [hv]; nofun) (by
                rintro (⟨_, w, h, h'⟩ | h)
                · cases h; rw [hv] at h'; cases h'
                · cases h)
  unfold grpc
  simp only
  have hti : envInt U (env (specific s "TIMEOUT")) = none ↔ ∃ v, env (specific s "TIMEOUT") = some v ∧ pyInt10 U v = none := by
    unfold envInt
    cases env (specific s "TIMEOUT") <;> simp
  cases het : envInt U (env (specific s "TIMEOUT")) with
  | none => simp [hti.1 het]
  | some et =>
    have hne : ¬∃ v, env (specific s "TIMEOUT") = some v ∧ pyInt10 U v = none := by rw [← hti, het]; simp
    have heq : et = (env (specific s "TIMEOUT")).bind (pyInt10 U) := by
      unfold envInt at het
      cases hv : env (specific s "TIMEOUT") with
      | none => rw [hv] at het; cases het; rfl
      | some v =>
        rw [hv] at het
        simp only [Option.map_eq_some_iff] at het
        obtain ⟨n, h1, h2⟩ := het
        simp [h1, ← h2]
    simp only [hne, false_or]
    rw [← heq, ← orInt_eq]
    generalize pickCompression env a.compression (specific s "COMPRESSION") = k
    cases k with
    | none => simp
    | some c =>
      simp only
      exact hbase (_, _, _, _) c

/-! ## HTTP -/

/-- **C79** HTTP: the URL is the argument; else the signal's variable, as it is; else the common variable (default `http://localhost:4318/`)
followed by the signal's path, with one slash between them. -/
theorem C79_http_url (U : DigitTable) (agent : Str) (env : Environ) (s : Signal) (a : HttpArgs) (c : Http) (h : http U agent env s a = some c) :
    (∀ x u, a.endpoint = some (x :: u) → c.url = x :: u) ∧
    ((a.endpoint = none ∨ a.endpoint = some []) →
      (∀ u, env (specific s "ENDPOINT") = some u → c.url = u) ∧
      (env (specific s "ENDPOINT") = none →
        (∀ b, (env (generic "ENDPOINT")).getD "http://localhost:4318/".toList = b ++ "/".toList → c.url = b ++ "/".toList ++ s.path) ∧
        ((∀ b, (env (generic "ENDPOINT")).getD "http://localhost:4318/".toList ≠ b ++ "/".toList) →
          c.url = (env (generic "ENDPOINT")).getD "http://localhost:4318/".toList ++ "/".toList ++ s.path))) := by
  unfold http at h
  simp only at h
  split at h
  · cases h
  · split at h
    · cases h
    · cases h
      refine ⟨?_, ?_⟩
      · intro x u hx; simp [hx, orElse]
      · intro hx
        have ho : ∀ d, (orElse a.endpoint (some d)).getD [] = d := by intro d; rcases hx with hx | hx <;> simp [hx, orElse]
        refine ⟨?_, ?_⟩
        · intro u hu; simp [hu, ho]
        · intro hu
          simp only [hu, ho, Option.getD_none]
          generalize (env (generic "ENDPOINT")).getD "http://localhost:4318/".toList = e
          refine ⟨?_, ?_⟩
          · rintro b rfl
            unfold appendPath
            rw [if_pos (by simp)]
          · intro hb
            unfold appendPath
            rw [if_neg]
            intro hl
            obtain ⟨ys, hys⟩ := List.getLast?_eq_some_iff.1 hl
            exact hb ys (by rw [hys]; rfl)

/-- **C79** HTTP: the constructor raises exactly if no (non-zero) time-out is given and the variable for it is set but not an integer, or no
compression is given and the variable for it is set to something else than `none`, `deflate` and `gzip` (in any case, with white space around). -/
theorem C79_http_raises_iff (U : DigitTable) (agent : Str) (env : Environ) (s : Signal) (a : HttpArgs) :
    http U agent env s a = none ↔
      ((a.timeout = none ∨ a.timeout = some 0) ∧ ∃ v, get2 env (specific s "TIMEOUT") (generic "TIMEOUT") = some v ∧ pyInt10 U v = none) ∨
      (a.compression = none ∧ ∃ v, get2 env (specific s "COMPRESSION") (generic "COMPRESSION") = some v ∧
        pyStrip (lowerAscii v) ∉ ["none".toList, "deflate".toList, "gzip".toList]) := by
  have hc : httpCompression env s = none ↔ ∃ v, get2 env (specific s "COMPRESSION") (generic "COMPRESSION") = some v ∧
        pyStrip (lowerAscii v) ∉ ["none".toList, "deflate".toList, "gzip".toList] := by
    unfold httpCompression
    cases hv : get2 env (specific s "COMPRESSION") (generic "COMPRESSION") with
    | none =>
      simp only [Option.getD_none]
      rw [if_pos (by decide)]
      simp
    | some v =>
      simp only [Option.getD_some, Option.some.injEq, exists_eq_left', List.mem_cons, List.not_mem_nil, or_false, not_or]
      split
      · simp_all
      · split
        · simp_all
        · split <;> simp_all
  have ht : ∀ (t : Option Int), orInt t none = none ↔ t = none ∨ t = some 0 := by
    intro t
    rcases t with _ | n
    · simp [orInt]
    · by_cases hn : n = 0
      · subst hn; simp [orInt]
      · simp [orInt, hn]
  have hgo : http U agent env s a = none ↔ httpTimeout U env s a.timeout = none ∨ pickHttpCompression env s a.compression = none := by
    unfold http
    simp only
    cases httpTimeout U env s a.timeout with
    | none => exact iff_of_true rfl (.inl rfl)
    | some t =>
      cases pickHttpCompression env s a.compression with
      | none => exact iff_of_true rfl (.inr rfl)
      | some k => exact iff_of_false nofun (by rintro (h | h) <;> cases h)
  rw [hgo]
  unfold httpTimeout pickHttpCompression
  refine or_congr ?_ ?_
  · rw [← ht]
    cases orInt a.timeout none with
    | some n => simp
    | none => cases get2 env (specific s "TIMEOUT") (generic "TIMEOUT") <;> simp
  · rw [← hc]
    cases a.compression <;> simp

/-- The value of a header, whatever the case of its name: the last one set. -/
def header (l : List (Str × Str)) (name : Str) : Option Str := (l.reverse.find? fun kv => decide (lowerAscii kv.1 = lowerAscii name)).map Prod.snd

theorem header_append (l m : List (Str × Str)) (n : Str) : header (l ++ m) n = (header m n).or (header l n) := by
  unfold header
  rw [List.reverse_append, List.find?_append]
  cases m.reverse.find? (fun kv => decide (lowerAscii kv.1 = lowerAscii n)) <;> simp

/-- **C79** HTTP: time-out, compression and headers. The content type, the user agent and, exactly if there is compression, the content encoding
are set by the exporter; every other header is as given: by the argument if it is not empty, else by the signal's variable if it is set, else
by the common one. -/
theorem C79_http_request (U : DigitTable) (agent : Str) (env : Environ) (s : Signal) (a : HttpArgs) (c : Http) (h : http U agent env s a = some c) :
    (∀ n, a.timeout = some n → n ≠ 0 → c.timeout = n) ∧
    ((a.timeout = none ∨ a.timeout = some 0) → (∀ v, get2 env (specific s "TIMEOUT") (generic "TIMEOUT") = some v → pyInt10 U v = some c.timeout) ∧
      (get2 env (specific s "TIMEOUT") (generic "TIMEOUT") = none → c.timeout = 10)) ∧
    (∀ k, a.compression = some k → c.compression = k) ∧
    (a.compression = none → c.compression.value = pyStrip (lowerAscii ((get2 env (specific s "COMPRESSION") (generic "COMPRESSION")).getD "none".toList))) ∧
    header c.headers "Content-Type".toList = some "application/x-protobuf".toList ∧ header c.headers "User-Agent".toList = some agent ∧
    (c.compression ≠ .noCompression → header c.headers "Content-Encoding".toList = some c.compression.value) ∧
    ∀ n, lowerAscii n ∉ ["content-type".toList, "user-agent".toList, "content-encoding".toList] →
      header c.headers n = header (match a.headers with
        | some (p :: l) => p :: l
        | _ => EnvHeaders.parse ((get2 env (specific s "HEADERS") (generic "HEADERS")).getD []) true) n := by
  unfold http at h
  simp only at h
  split at h
  · cases h
  · rename_i t ht
    split at h
    · cases h
    · rename_i k hk
      cases h
      simp only
      have h1 : lowerAscii "Content-Type".toList = "content-type".toList := by decide
      have h2 : lowerAscii "User-Agent".toList = "user-agent".toList := by decide
      have h3 : lowerAscii "Content-Encoding".toList = "content-encoding".toList := by decide
      unfold httpTimeout at ht
      unfold pickHttpCompression at hk
      refine ⟨?_, ?_, ?_, ?_, ?_, ?_, ?_, ?_⟩
      · intro n hn h0
        rw [hn] at ht
        simp only [orInt, h0] at ht
        cases ht; rfl
      · intro hn
        have ho : orInt a.timeout none = none := by rcases hn with hn | hn <;> simp [hn, orInt]
        rw [ho] at ht
        constructor
        · intro v hv; rw [hv] at ht; exact ht
        · intro hv; rw [hv] at ht; cases ht; rfl
      · intro k' hk'; rw [hk'] at hk; cases hk; rfl
      · intro hn
        rw [hn] at hk
        simp only at hk
        unfold httpCompression at hk
        simp only at hk
        split at hk
        · rename_i h; cases hk; exact h.symm
        · split at hk
          · rename_i h; cases hk; exact h.symm
          · split at hk
            · rename_i h; cases hk; exact h.symm
            · cases hk
      · rw [List.append_assoc, header_append]
        cases k <;> rfl
      · rw [List.append_assoc, header_append]
        cases k <;> rfl
      · intro hn
        rw [if_neg hn, header_append]
        rfl
      · intro n hn
        simp only [List.mem_cons, List.not_mem_nil, or_false, not_or] at hn
        have e1 : lowerAscii "Content-Type".toList ≠ lowerAscii n := by rw [h1]; exact fun h => hn.1 h.symm
        have e2 : lowerAscii "User-Agent".toList ≠ lowerAscii n := by rw [h2]; exact fun h => hn.2.1 h.symm
        have e3 : lowerAscii "Content-Encoding".toList ≠ lowerAscii n := by rw [h3]; exact fun h => hn.2.2 h.symm
        rw [List.append_assoc, header_append]
        have : header ([("Content-Type".toList, "application/x-protobuf".toList), ("User-Agent".toList, agent)] ++
            if k = .noCompression then [] else [("Content-Encoding".toList, k.value)]) n = none := by
          split <;> simp only [header, List.append_nil, List.cons_append, List.nil_append, List.reverse_cons, List.reverse_nil, List.find?_cons, List.find?_nil,
            e1, e2, e3, decide_false, Option.map_none]
        rw [this]; rfl

/-! ## Signals do not affect each other -/

/-- The names of the settings. -/
def settings : List String := ["ENDPOINT", "INSECURE", "CERTIFICATE", "CLIENT_KEY", "CLIENT_CERTIFICATE", "HEADERS", "TIMEOUT", "COMPRESSION"]

/-- `env` with one variable changed. -/
def setVar (env : Environ) (k : Str) (v : Option Str) : Environ := fun n => if n = k then v else env n

theorem names_apart (s s' : Signal) (h : s ≠ s') (x : String) (hx : x ∈ settings) (y : String) (hy : y ∈ settings) :
    specific s y ≠ specific s' x ∧ generic y ≠ specific s' x := by
  have key : ∀ x ∈ settings, ∀ y ∈ settings, ∀ p ∈ [(Signal.traces, Signal.metrics), (.traces, .logs), (.metrics, .traces), (.metrics, .logs), (.logs, .traces), (.logs, .metrics)],
      specific p.1 y ≠ specific p.2 x ∧ generic y ≠ specific p.2 x := by decide +kernel
  refine key x hx y hy (s, s') ?_
  cases s <;> cases s' <;> simp_all

/-- **C79** A variable of another signal has no effect. -/
theorem C79_isolated (U : DigitTable) (agent : Str) (env : Environ) (s s' : Signal) (h : s ≠ s') (x : String) (hx : x ∈ settings) (v : Option Str)
    (a : GrpcArgs) (b : HttpArgs) :
    grpc U agent (setVar env (specific s' x) v) s a = grpc U agent env s a ∧ http U agent (setVar env (specific s' x) v) s b = http U agent env s b := by
  have h1 : ∀ y, y ∈ settings → setVar env (specific s' x) v (specific s y) = env (specific s y) := by
    intro y hy; simp only [setVar]; rw [if_neg (names_apart s s' h x hx y hy).1]
  have h2 : ∀ y, y ∈ settings → setVar env (specific s' x) v (generic y) = env (generic y) := by
    intro y hy; simp only [setVar]; rw [if_neg (names_apart s s' h x hx y hy).2]
  have m : ∀ y, y ∈ settings ↔ y ∈ settings := fun _ => Iff.rfl
  constructor
  · unfold grpc grpcBase pickCompression environToCompression getCredentials
    simp only [h1 "INSECURE" (by decide), h1 "CERTIFICATE" (by decide), h1 "CLIENT_KEY" (by decide), h1 "CLIENT_CERTIFICATE" (by decide),
      h1 "TIMEOUT" (by decide), h1 "COMPRESSION" (by decide), h1 "ENDPOINT" (by decide), h1 "HEADERS" (by decide),
      h2 "INSECURE" (by decide), h2 "CERTIFICATE" (by decide), h2 "CLIENT_KEY" (by decide), h2 "CLIENT_CERTIFICATE" (by decide),
      h2 "TIMEOUT" (by decide), h2 "COMPRESSION" (by decide), h2 "ENDPOINT" (by decide), h2 "HEADERS" (by decide)]
  · unfold http httpTimeout pickHttpCompression httpHeaders httpCompression get2
    simp only [h1 "CERTIFICATE" (by decide), h1 "CLIENT_KEY" (by decide), h1 "CLIENT_CERTIFICATE" (by decide),
      h1 "TIMEOUT" (by decide), h1 "COMPRESSION" (by decide), h1 "ENDPOINT" (by decide), h1 "HEADERS" (by decide),
      h2 "CERTIFICATE" (by decide), h2 "CLIENT_KEY" (by decide), h2 "CLIENT_CERTIFICATE" (by decide),
      h2 "TIMEOUT" (by decide), h2 "COMPRESSION" (by decide), h2 "ENDPOINT" (by decide), h2 "HEADERS" (by decide)]

/-- **C79** HTTP: the certificate file used to verify the server and the client's certificate and key are the argument, else the signal's
variable if it is set, else the common one; the key is used only together with a certificate. -/
theorem C79_http_tls (U : DigitTable) (agent : Str) (env : Environ) (s : Signal) (a : HttpArgs) (c : Http) (h : http U agent env s a = some c) :
    let pick (arg : Option Str) (x : String) := (firstNonEmpty [arg]).or ((env (specific s x)).or (env (generic x)))
    c.verify = pick a.certificateFile "CERTIFICATE" ∧
    c.cert = match firstNonEmpty [pick a.clientCertificateFile "CLIENT_CERTIFICATE"], firstNonEmpty [pick a.clientKeyFile "CLIENT_KEY"] with
      | none, _ => .none
      | some f, none => .file f
      | some f, some k => .pair f k := by
  have hp : ∀ (arg : Option Str) (x : String), orElse arg (get2 env (specific s x) (generic x)) = (firstNonEmpty [arg]).or ((env (specific s x)).or (env (generic x))) := by
    intro arg x
    unfold get2
    rcases arg with _ | _ | _ <;> rcases env (specific s x) with _ | _ <;> rfl
  unfold http at h
  simp only [hp, truthy_eq] at h
  split at h
  · cases h
  · split at h
    · cases h
    · cases h
      refine ⟨rfl, ?_⟩
      simp only
      cases firstNonEmpty [(firstNonEmpty [a.clientCertificateFile]).or ((env (specific s "CLIENT_CERTIFICATE")).or (env (generic "CLIENT_CERTIFICATE")))] <;>
        cases firstNonEmpty [(firstNonEmpty [a.clientKeyFile]).or ((env (specific s "CLIENT_KEY")).or (env (generic "CLIENT_KEY")))] <;> rfl

/-! ## Findings -/

/-- An environment with the variables of a list set. -/
def envOf (l : List (Str × Str)) : Environ := fun n => (l.find? fun kv => kv.1 = n).map Prod.snd

/-- **C79** refuted: `deflate` and `none` are values of the compression variable that the HTTP exporters accept; the gRPC exporters raise for them,
whatever the rest of the configuration. -/
theorem C79_grpc_rejects_deflate_and_none (U : DigitTable) (agent : Str) (env : Environ) (s : Signal) (a : GrpcArgs) (ha : a.compression = none)
    (v : Str) (hv : v = "deflate".toList ∨ v = "none".toList) (he : env (specific s "COMPRESSION") = some v) :
    grpc U agent env s a = none ∧ ∃ k, httpCompression env s = some k ∧ k.value = v := by
  have hg : get2 env (specific s "COMPRESSION") (generic "COMPRESSION") = some v := by unfold get2; rw [he]
  refine ⟨(C79_grpc_raises_iff U agent env s a).2 (.inr (.inr (.inr ⟨ha, v, hg, ?_⟩))), ?_⟩
  · rcases hv with rfl | rfl <;> decide
  · unfold httpCompression
    rw [hg]
    rcases hv with rfl | rfl
    · exact ⟨.deflate, by decide, by decide⟩
    · exact ⟨.noCompression, by decide, by decide⟩

/-- **C79** refuted: an HTTP exporter whose signal's endpoint variable is set to the empty string posts to the empty URL, though the specification
treats an empty variable as not set and a common endpoint is configured. -/
theorem C79_http_blank_endpoint (U : DigitTable) (agent : Str) (s : Signal) :
    (http U agent (envOf [(specific s "ENDPOINT", []), (generic "ENDPOINT", "http://collector:4318".toList)]) s {}).map (·.url) = some [] ∧
    (http U agent (envOf [(generic "ENDPOINT", "http://collector:4318".toList)]) s {}).map (·.url) = some ("http://collector:4318/".toList ++ s.path) := by
  cases s <;> exact ⟨by rfl, by rfl⟩

/-- **C79** refuted: with the signal's certificate configured and `insecure` set to true, an `https` endpoint is connected to securely, but the
signal's certificate is not used: the system's certificates are. -/
theorem C79_grpc_certificate_ignored (U : DigitTable) (agent : Str) (s : Signal) :
    (grpc U agent (envOf [(specific s "CERTIFICATE", "ca.pem".toList)]) s { endpoint := some "https://h:1".toList, insecure := some true }).map (·.credentials) = some (some .default) ∧
    (grpc U agent (envOf [(specific s "CERTIFICATE", "ca.pem".toList)]) s { endpoint := some "https://h:1".toList }).map (·.credentials) =
      some (some (.files "ca.pem".toList none none)) := by
  cases s <;> exact ⟨by rfl, by rfl⟩

/-- **C79** refuted: a malformed time-out variable of the signal makes the gRPC constructor raise even though the time-out is given as argument. -/
theorem C79_grpc_unused_timeout (U : DigitTable) (agent : Str) (env : Environ) (s : Signal) (n : Int) (v : Str) (he : env (specific s "TIMEOUT") = some v)
    (hv : pyInt10 U v = none) : grpc U agent env s { timeout := some n } = none :=
  (C79_grpc_raises_iff U agent env s _).2 (.inr (.inl ⟨v, he, hv⟩))

/-- The hypotheses are met: a concrete exporter. -/
example (U : DigitTable) : grpc U "ua".toList (envOf [(generic "ENDPOINT", "HTTPS://h:1/x".toList), (generic "HEADERS", "a=b".toList), (specific .traces "COMPRESSION", " GZip".toList)])
      .traces {} = some ⟨"h:1".toList, some .default, [("a".toList, "b".toList), ("user-agent".toList, "ua".toList)], 10, .gzip⟩ := by
  rfl

example (U : DigitTable) : Scheme "https".toList ∧ Host "h:1".toList := by
  refine ⟨⟨'h', "ttps".toList, rfl, by decide, by decide⟩, by decide, by decide⟩

end OtlpConfig
end Otel
