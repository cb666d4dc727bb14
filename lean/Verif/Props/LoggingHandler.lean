import Verif.Model.LoggingHandler
import Verif.Props.Attributes
import Verif.Props.Severity
/-!
# C78: records of the `logging` module
-/
namespace Otel
namespace LoggingHandler
open Spec

/-! ## Specification -/

/-- A string as an attribute value: of an allowed type. -/
def text (s : Str) : Val := .atom (.str s true)

/-- The attributes the handler adds by itself. -/
def own (r : PyRecord) : Dict Str Val :=
  [("code.filepath".toList, text r.pathname), ("code.function".toList, (match r.funcName with | some f => text f | none => .atom .none)), ("code.lineno".toList, .atom (.int r.lineno true))] ++
  match r.excInfo with
  | none => []
  | some e =>
    (match e.type with | some t => [("exception.type".toList, text t)] | none => []) ++
    (match e.value with | some (some a :: _) => [("exception.message".toList, text a)] | _ => []) ++
    (match e.traceback with | some t => [("exception.stacktrace".toList, text t)] | none => [])

/-- The attributes every `logging.LogRecord` has by itself (documentation of `logging`), and `getMessage`. -/
def natural : List Str :=
  splitC ' ' ("name msg args levelname levelno pathname filename module exc_info exc_text stack_info lineno funcName created msecs " ++
    "relativeCreated thread threadName processName process taskName message asctime getMessage").toList

theorem reserved_iff (k : Str) : k ∈ reserved ↔ k ∈ natural :=
  ⟨fun h => (by decide +kernel : ∀ k, k ∈ reserved → k ∈ natural) k h, fun h => (by decide +kernel : ∀ k, k ∈ natural → k ∈ reserved) k h⟩

/-- The attributes the application gave (`extra=…`). -/
def given (r : PyRecord) : Dict Str Val := r.vars.filter fun kv => !(natural.contains kv.1)

theorem given_eq (r : PyRecord) : r.vars.filter (fun kv => !(reserved.contains kv.1)) = given r := by
  have h : ∀ k, reserved.contains k = natural.contains k := by
    intro k
    rw [Bool.eq_iff_iff, List.contains_iff_mem, List.contains_iff_mem]
    exact reserved_iff k
  simp only [h, given]

/-- What the handler must be able to turn into a string. -/
def Printable (fmt : Option (PyRecord → Option Str)) (r : PyRecord) : Prop :=
  (∀ e l, r.excInfo = some e → e.value ≠ some (none :: l)) ∧ body fmt r ≠ none

/-! ## Attributes -/

theorem own_keys_nodup (r : PyRecord) : (Dict.keys (own r)).Nodup := by
  unfold own
  cases r.excInfo with
  | none => simp [Dict.keys]
  | some e =>
    obtain ⟨t, v, tb⟩ := e
    cases t <;> cases tb <;> rcases v with _ | ⟨_ | ⟨_ | _, _⟩⟩ <;> simp [Dict.keys]

theorem own_length (r : PyRecord) : (own r).length ≤ 6 := by
  unfold own
  cases r.excInfo with
  | none => simp
  | some e =>
    obtain ⟨t, v, tb⟩ := e
    cases t <;> cases tb <;> rcases v with _ | ⟨_ | ⟨_ | _, _⟩⟩ <;> simp

theorem strVal_eq (s : Str) : strVal s = text s := rfl

theorem optVal_eq (o : Option Str) : optVal o = (match o with | some f => text f | none => .atom .none) := by cases o <;> rfl

theorem getAttributes_eq (r : PyRecord) :
    (∀ e l, r.excInfo = some e → e.value ≠ some (none :: l)) → getAttributes r = some (Dict.update (given r) (own r)) := by
  intro h
  unfold getAttributes own
  rw [given_eq]
  cases hx : r.excInfo with
  | none => simp [Dict.update, strVal_eq, optVal_eq]
  | some e =>
    have h1 := h e
    obtain ⟨t, v, tb⟩ := e
    simp only [hx, true_implies] at h1
    cases t <;> cases tb <;> rcases v with _ | ⟨_ | ⟨_ | _, l⟩⟩ <;> first | (exact absurd rfl (h1 _)) | simp [excAttributes, Dict.update, strVal_eq, optVal_eq]

theorem getAttributes_none (r : PyRecord) (e : ExcInfo) (l : List (Option Str)) (h : r.excInfo = some e) (h' : e.value = some (none :: l)) :
    getAttributes r = none := by
  obtain ⟨t, v, tb⟩ := e
  simp only at h'
  subst h'
  simp [getAttributes, h, excAttributes]

theorem lastAssignments_nodup {ν : Type} (d : Dict Str ν) (h : d.keys.Nodup) : lastAssignments d = d := by
  induction d with
  | nil => rfl
  | cons p d ih =>
    simp only [Dict.keys_cons, List.nodup_cons] at h
    have : p.1 ∉ d.map Prod.fst := h.1
    simp only [lastAssignments]
    rw [if_neg this, ih h.2]

/-- The pairs of a dictionary that can be attributes. -/
def kept (d : Dict Str Val) : Dict Str Val := (d.map fun kv => (AKey.str kv.1, kv.2)).filterMap (BAttrs.stored none)

theorem stored_str (k : Str) (v : Val) : BAttrs.stored none (.str k, v) = (Attr.clean (.str k) v none).map fun w => (k, w) := by
  unfold BAttrs.stored
  simp only
  cases Attr.clean (.str k) v none <;> rfl

theorem kept_cons (k : Str) (v : Val) (d : Dict Str Val) : kept ((k, v) :: d) = (match Attr.clean (.str k) v none with | some w => [(k, w)] | none => []) ++ kept d := by
  simp only [kept, List.map_cons, List.filterMap_cons, stored_str]
  cases Attr.clean (.str k) v none <;> rfl

theorem kept_keys (d : Dict Str Val) : (Dict.keys (kept d)).Sublist d.keys := by
  induction d with
  | nil => exact List.Sublist.refl _
  | cons p d ih =>
    obtain ⟨k, v⟩ := p
    rw [kept_cons]
    cases Attr.clean (.str k) v none with
    | none => simpa using List.Sublist.cons _ ih
    | some w => simpa using ih

theorem kept_append (a b : Dict Str Val) : kept (a ++ b) = kept a ++ kept b := by simp [kept]

theorem kept_length (d : Dict Str Val) : (kept d).length ≤ d.length := by
  unfold kept
  exact Nat.le_trans (List.length_filterMap_le _ _) (by simp)

theorem kept_get (d : Dict Str Val) (k : Str) (h : d.keys.Nodup) : Dict.get? (kept d) k = (Dict.get? d k).bind fun v => Attr.clean (.str k) v none := by
  induction d with
  | nil => rfl
  | cons p d ih =>
    obtain ⟨k', v⟩ := p
    simp only [Dict.keys_cons, List.nodup_cons] at h
    rw [kept_cons]
    by_cases hk : k' = k
    · subst hk
      simp only [Dict.get?, if_true, Option.bind_some]
      cases Attr.clean (.str k') v none with
      | none =>
        simp only [List.nil_append]
        rw [ih h.2, (Dict.get?_eq_none_iff d k').2 h.1]; rfl
      | some w => simp [Dict.get?]
    · simp only [Dict.get?, hk, if_false]
      cases Attr.clean (.str k') v none with
      | none => exact ih h.2
      | some w => simp only [List.cons_append, List.nil_append, Dict.get?, hk, if_false]; exact ih h.2

theorem foldl_set (kvs : List (AKey × Val)) (b : BAttrs) (h : b.immutable = false) :
    kvs.foldl (fun (b : BAttrs) kv => b.setCore kv.1 kv.2) b = kvs.foldl (fun b kv => b.step (.set kv.1 kv.2)) b := by
  induction kvs generalizing b with
  | nil => rfl
  | cons x kvs ih =>
    simp only [List.foldl_cons]
    have : b.step (.set x.1 x.2) = b.setCore x.1 x.2 := by simp [BAttrs.step, BAttrs.set, h]
    rw [this]
    exact ih _ (by rw [(BAttrs.setCore_cfg b x.1 x.2).2.2]; exact h)

theorem new_d (n : Nat) (d : Dict Str Val) (h : d.keys.Nodup) :
    (BAttrs.new (some n) (d.map fun kv => (AKey.str kv.1, kv.2)) false none).d = newest (some n) (kept d) := by
  have := BAttrs.C14_contents (some n) none (d.map fun kv => (AKey.str kv.1, kv.2))
  rw [show (d.map fun kv => (AKey.str kv.1, kv.2)).filterMap (BAttrs.stored none) = kept d from rfl,
    lastAssignments_nodup _ (List.Sublist.nodup (kept_keys d) h)] at this
  rw [← this, ← foldl_set _ _ rfl]
  rfl

theorem dropped_zero (n : Nat) (kvs : List (AKey × Val)) (b : BAttrs) (hb : b.maxlen = some n) (h : b.d.length + kvs.length ≤ n) :
    (kvs.foldl (fun (b : BAttrs) kv => b.setCore kv.1 kv.2) b).dropped = b.dropped := by
  induction kvs generalizing b with
  | nil => rfl
  | cons x kvs ih =>
    simp only [List.length_cons] at h
    have hcfg := (BAttrs.setCore_cfg b x.1 x.2).1
    have hone : (b.setCore x.1 x.2).dropped = b.dropped ∧ (b.setCore x.1 x.2).d.length ≤ b.d.length + 1 := by
      rw [BAttrs.setCore_eq]
      split
      · rename_i h0
        rw [hb] at h0
        cases h0
        omega
      · split
        · exact ⟨rfl, by omega⟩
        · rename_i p _
          split
          · refine ⟨rfl, ?_⟩
            simp only [List.length_append, List.length_singleton]
            have := Dict.length_erase_le b.d p.1
            omega
          · split
            · rename_i h0
              rw [hb] at h0
              cases h0
              omega
            · exact ⟨rfl, by simp⟩
    rw [List.foldl_cons, ih _ (by rw [hcfg]; exact hb) (by omega), hone.1]

theorem limits_eq (U : DigitTable) (e : Limits.Env) : limits U e = (some 128, none) := rfl

/-! ## The theorems -/

theorem emit_spec (U : DigitTable) (e : Limits.Env) (fmt : Option (PyRecord → Option Str)) (ctx : Ctx) (now : Int) (res : Nat) (r : PyRecord)
    (h : Printable fmt r) : ∃ b, body fmt r = some b ∧ emit U e fmt ctx now (.sdk false res) r = some [(⟨r.name, some [], [], none⟩,
      ⟨r.createdNs, now, (Ctx.currentSpan ctx).traceId, (Ctx.currentSpan ctx).spanId, (Ctx.currentSpan ctx).flags, Severity.severityText r.levelname,
        Severity.spec r.levelno, b, res, BAttrs.new (some 128) ((Dict.update (given r) (own r)).map fun kv => (AKey.str kv.1, kv.2)) false none⟩)] := by
  obtain ⟨b, hb⟩ := Option.ne_none_iff_exists'.1 h.2
  refine ⟨b, hb, ?_⟩
  simp only [emit, translate, getAttributes_eq r h.1, Severity.C54_total, hb, limits_eq]

/-- **C78** With an SDK provider set, every record whose message can be formatted is passed on exactly once, under the name of its logger, and
says what the record said: its time, the trace id, span id and flags of the current span, the severity and its name (C54), and as body the
formatter's output, or the message object itself if it is not a string and has no arguments, or else the formatted message. -/
theorem C78_faithful (U : DigitTable) (e : Limits.Env) (fmt : Option (PyRecord → Option Str)) (ctx : Ctx) (now : Int) (res : Nat) (r : PyRecord)
    (h : Printable fmt r) :
    ∃ (s : ProxyTracer.Scope) (x : OtelRecord), emit U e fmt ctx now (.sdk false res) r = some [(s, x)] ∧
      s.name = r.name ∧ s.attrs = none ∧ x.timestamp = r.createdNs ∧ x.observed = now ∧ x.resource = res ∧
      x.traceId = (Ctx.currentSpan ctx).traceId ∧ x.spanId = (Ctx.currentSpan ctx).spanId ∧ x.flags = (Ctx.currentSpan ctx).flags ∧
      x.severityNumber = Severity.spec r.levelno ∧
      (r.levelname ≠ "WARNING".toList → x.severityText = r.levelname) ∧ (r.levelname = "WARNING".toList → x.severityText = "WARN".toList) ∧
      (∀ f, fmt = some f → ∃ t, f r = some t ∧ x.body = .text t) ∧
      (fmt = none → ∀ n, r.msg = .obj n → r.hasArgs = false → x.body = .obj n) ∧
      (fmt = none → ((∃ s, r.msg = .str s) ∨ r.hasArgs = true) → ∃ t, r.message = some t ∧ x.body = .text t) := by
  obtain ⟨b, hb, he⟩ := emit_spec U e fmt ctx now res r h
  refine ⟨_, _, he, rfl, rfl, rfl, rfl, rfl, rfl, rfl, rfl, rfl, (Severity.C54_text _).1, ?_, ?_, ?_, ?_⟩
  · intro hw; simp only [hw]; rfl
  · rintro f rfl
    simp only [body] at hb
    cases hf : f r with
    | none => rw [hf] at hb; cases hb
    | some t => rw [hf] at hb; exact ⟨t, rfl, by cases hb; rfl⟩
  · rintro rfl n hm ha
    simp only [body, hm, ha] at hb
    cases hb; rfl
  · rintro rfl hm
    have : body none r = r.message.map .text := by
      unfold body
      simp only
      split
      · rename_i n h1 h2
        rcases hm with ⟨s, hs⟩ | hs
        · rw [h1] at hs; cases hs
        · rw [h2] at hs; cases hs
      · rfl
    rw [this] at hb
    cases hf : r.message with
    | none => rw [hf] at hb; cases hb
    | some t => rw [hf] at hb; exact ⟨t, rfl, by cases hb; rfl⟩

/-- **C78** A record with at most 128 attributes in all has exactly the handler's own attributes (source location and exception) and, under all
other names, what the application gave, apart from the names of the record's natural attributes and from values that cannot be attributes. -/
theorem C78_attributes (U : DigitTable) (e : Limits.Env) (fmt : Option (PyRecord → Option Str)) (ctx : Ctx) (now : Int) (res : Nat) (r : PyRecord)
    (h : Printable fmt r) (hv : r.vars.keys.Nodup) (hl : (given r).length + (own r).length ≤ 128) (s : ProxyTracer.Scope) (x : OtelRecord)
    (hx : emit U e fmt ctx now (.sdk false res) r = some [(s, x)]) :
    x.attributes.dropped = 0 ∧
    ∀ k, Dict.get? x.attributes.d k =
      ((Dict.get? (own r) k).or (if k ∈ natural then none else Dict.get? r.vars k)).bind fun v => Attr.clean (.str k) v none := by
  obtain ⟨b, hb, he⟩ := emit_spec U e fmt ctx now res r h
  rw [he] at hx
  simp only [Option.some.injEq, List.cons.injEq, Prod.mk.injEq, and_true] at hx
  obtain ⟨_, rfl⟩ := hx
  simp only
  have hg : (given r).keys.Nodup := List.Sublist.nodup (List.filter_sublist.map _) hv
  have hn : (Dict.keys (Dict.update (given r) (own r))).Nodup := Dict.nodup_update _ _ hg
  have hlen : (Dict.update (given r) (own r)).length ≤ 128 := by
    refine Nat.le_trans ?_ hl
    generalize own r = o
    generalize given r = d
    induction o generalizing d with
    | nil => simp [Dict.update]
    | cons p o ih =>
      rw [Dict.update_cons]
      refine Nat.le_trans (ih _) ?_
      rw [Dict.length_set]
      simp only [List.length_cons]
      split <;> omega
  constructor
  · simp only [BAttrs.new]
    rw [dropped_zero 128 _ _ rfl (by simpa using hlen)]
  · intro k
    rw [new_d 128 _ hn]
    have : newest (some 128) (kept (Dict.update (given r) (own r))) = kept (Dict.update (given r) (own r)) := by
      simp only [newest]
      rw [List.take_of_length_le (by rw [List.length_reverse]; exact Nat.le_trans (kept_length _) hlen), List.reverse_reverse]
    rw [this, kept_get _ _ hn, Dict.get?_update _ _ _ (own_keys_nodup r)]
    have hgk : Dict.get? (given r) k = if k ∈ natural then none else Dict.get? r.vars k := by
      unfold given
      generalize r.vars = d
      induction d with
      | nil => simp
      | cons p d ih =>
        obtain ⟨k', v⟩ := p
        rw [List.filter_cons]
        by_cases hk : k' = k
        · subst hk
          by_cases hr : k' ∈ natural
          · simp only [List.contains_iff_mem, hr, decide_true, Bool.not_true, Bool.false_eq_true, if_false, if_true] at ih ⊢
            simpa [hr] using ih
          · simp [hr, Dict.get?]
        · by_cases hr : k' ∈ natural
          · simp only [hr, List.contains_iff_mem, decide_true, Bool.not_true, Bool.false_eq_true, if_false]
            simp only [Dict.get?, hk, if_false]
            simpa [hr] using ih
          · have hc : (!(natural.contains k')) = true := by simp [hr]
            simp only [hc, if_true, Dict.get?, hk, if_false]
            exact ih
    rw [hgk]

/-- **C78** However many attributes the application gives, the record keeps the handler's own (source location, exception), as long as the
application does not use their names. -/
theorem C78_own_kept (U : DigitTable) (e : Limits.Env) (fmt : Option (PyRecord → Option Str)) (ctx : Ctx) (now : Int) (res : Nat) (r : PyRecord)
    (h : Printable fmt r) (hv : r.vars.keys.Nodup) (ho : ∀ k, k ∈ (own r).keys → k ∉ r.vars.keys) (s : ProxyTracer.Scope) (x : OtelRecord)
    (hx : emit U e fmt ctx now (.sdk false res) r = some [(s, x)]) (k : Str) (v : Val) (hk : (k, v) ∈ own r) :
    Dict.get? x.attributes.d k = Attr.clean (.str k) v none := by
  obtain ⟨b, hb, he⟩ := emit_spec U e fmt ctx now res r h
  rw [he] at hx
  simp only [Option.some.injEq, List.cons.injEq, Prod.mk.injEq, and_true] at hx
  obtain ⟨_, rfl⟩ := hx
  simp only
  have hsub : (given r).keys.Sublist r.vars.keys := List.filter_sublist.map _
  have hg : (given r).keys.Nodup := List.Sublist.nodup hsub hv
  have hn : (Dict.keys (Dict.update (given r) (own r))).Nodup := Dict.nodup_update _ _ hg
  have happ : Dict.update (given r) (own r) = given r ++ own r := by
    have ho' : ∀ k, k ∈ (own r).keys → k ∉ (given r).keys := fun k hk hk' => ho k hk (hsub.subset hk')
    have hnd := own_keys_nodup r
    clear hk hb he hn
    generalize own r = o at ho' hnd
    generalize given r = d at ho'
    clear hg hsub
    induction o generalizing d with
    | nil => simp [Dict.update]
    | cons p o ih =>
      simp only [Dict.keys_cons, List.nodup_cons] at hnd
      rw [Dict.update_cons, Dict.set_of_not_mem _ _ _ (ho' p.1 (by simp)), ih hnd.2]
      · simp
      · intro k hk hk'
        simp only [Dict.keys_append, List.mem_append, Dict.keys_cons, Dict.keys_nil, List.mem_singleton] at hk'
        rcases hk' with hk' | rfl
        · exact ho' k (by simp [hk]) hk'
        · exact hnd.1 hk
  rw [new_d 128 _ hn]
  have hkeys : (Dict.keys (kept (given r) ++ kept (own r))).Nodup := by
    rw [← kept_append, ← happ]
    exact List.Sublist.nodup (kept_keys _) hn
  rw [happ, kept_append]
  have hlen : (kept (own r)).length ≤ 128 := Nat.le_trans (kept_length _) (Nat.le_trans (own_length r) (by omega))
  have hnew : newest (some 128) (kept (given r) ++ kept (own r)) = ((kept (given r)).reverse.take (128 - (kept (own r)).length)).reverse ++ kept (own r) := by
    simp only [newest]
    rw [List.reverse_append, List.take_append, List.take_of_length_le (by rw [List.length_reverse]; exact hlen), List.reverse_append, List.reverse_reverse]
    simp
  have hget : Dict.get? (own r) k = some v := Dict.get?_of_mem _ (own_keys_nodup r) _ _ hk
  have hkept : Dict.get? (kept (own r)) k = Attr.clean (.str k) v none := by
    rw [kept_get _ _ (own_keys_nodup r), hget]; rfl
  have hnot : k ∉ Dict.keys ((kept (given r)).reverse.take (128 - (kept (own r)).length)).reverse := by
    intro hc
    have hmem : k ∈ Dict.keys (kept (given r)) := by
      unfold Dict.keys at hc ⊢
      rw [List.mem_map] at hc ⊢
      obtain ⟨p, hp, rfl⟩ := hc
      refine ⟨p, ?_, rfl⟩
      rw [List.mem_reverse] at hp
      exact List.mem_reverse.1 (List.mem_of_mem_take hp)
    exact ho k (List.mem_map.2 ⟨(k, v), hk, rfl⟩) (hsub.subset ((kept_keys _).subset hmem))
  rw [hnew]
  generalize ((kept (given r)).reverse.take (128 - (kept (own r)).length)).reverse = a at hnot
  rw [← hkept]
  clear hkeys hnew happ hn hg hsub he
  induction a with
  | nil => rfl
  | cons p a ih =>
    simp only [Dict.keys_cons, List.mem_cons, not_or] at hnot
    obtain ⟨k', v'⟩ := p
    simp only [List.cons_append, Dict.get?]
    rw [if_neg (fun hq => hnot.1 hq.symm)]
    exact ih hnot.2

/-- **C78** A record has at most 128 attributes, of any length, whatever the environment says. -/
theorem C78_limit (U : DigitTable) (e e' : Limits.Env) (fmt : Option (PyRecord → Option Str)) (ctx : Ctx) (now : Int) (p : Provider) (r : PyRecord) :
    emit U e fmt ctx now p r = emit U e' fmt ctx now p r ∧
    ∀ s x, emit U e fmt ctx now p r = some [(s, x)] → r.vars.keys.Nodup → x.attributes.d.length ≤ 128 := by
  refine ⟨rfl, ?_⟩
  intro s x hx hv
  cases p with
  | unset =>
    simp only [emit, translate] at hx
    split at hx
    · rename_i h; split at h <;> simp_all
    · cases hx
  | sdk dis res =>
    cases dis with
    | true => simp [emit] at hx
    | false =>
      simp only [emit] at hx
      split at hx
      · rename_i y hy
        simp only [Option.some.injEq, List.cons.injEq, Prod.mk.injEq, and_true] at hx
        obtain ⟨_, rfl⟩ := hx
        simp only [translate] at hy
        split at hy
        · rename_i d n b q _ hd _ _ _
          cases hy
          simp only [limits_eq, BAttrs.new]
          rw [foldl_set _ _ rfl]
          have hb := BAttrs.C14_contents (some 128) none (d.map fun kv => (AKey.str kv.1, kv.2))
          unfold BAttrs.empty BAttrs.new at hb
          simp only [List.foldl_nil] at hb
          rw [hb]
          simp only [newest, List.length_reverse, List.length_take]
          omega
        · cases hy
      · cases hx

/-- **C78** If the SDK is disabled, logging does nothing and never raises. -/
theorem C78_disabled (U : DigitTable) (e : Limits.Env) (fmt : Option (PyRecord → Option Str)) (ctx : Ctx) (now : Int) (res : Nat) (r : PyRecord) :
    emit U e fmt ctx now (.sdk true res) r = some [] := rfl

/-- **C78** With a provider, a logging call raises exactly if the message cannot be formatted or the exception's first argument cannot be
printed. -/
theorem C78_raises_iff (U : DigitTable) (e : Limits.Env) (fmt : Option (PyRecord → Option Str)) (ctx : Ctx) (now : Int) (res : Nat) (r : PyRecord) :
    emit U e fmt ctx now (.sdk false res) r = none ↔ ¬Printable fmt r := by
  constructor
  · intro h hp
    obtain ⟨b, _, he⟩ := emit_spec U e fmt ctx now res r hp
    rw [he] at h; cases h
  · intro h
    by_cases hb : body fmt r = none
    · simp only [emit, translate, hb]
      cases getAttributes r <;> cases Severity.stdToOtel r.levelno <;> rfl
    · have : ∃ e l, r.excInfo = some e ∧ e.value = some (none :: l) := by
        refine Classical.byContradiction fun hc => h ⟨?_, hb⟩
        intro e l h1 h2
        exact hc ⟨e, l, h1, h2⟩
      obtain ⟨x, l, h1, h2⟩ := this
      simp only [emit, translate, getAttributes_none r x l h1 h2]

/-- **C78**, refuted: attaching the handler is not safe before a provider is set: then every logging call raises (`AttributeError`, for the
proxy logger has no `resource`). -/
theorem C78_no_provider (U : DigitTable) (e : Limits.Env) (fmt : Option (PyRecord → Option Str)) (ctx : Ctx) (now : Int) (r : PyRecord) :
    emit U e fmt ctx now .unset r = none := by
  simp only [emit, translate]
  cases getAttributes r <;> cases Severity.stdToOtel r.levelno <;> cases body fmt r <;> rfl

/-- A record of `logger.warning("%d items", 3, extra={"user": "bob", "code.lineno": 1})` in an `except` block. -/
def sample : PyRecord where
  name := "app".toList
  levelno := 30
  levelname := "WARNING".toList
  createdNs := 5
  pathname := "a.py".toList
  funcName := some "f".toList
  lineno := 7
  msg := .str "%d items".toList
  hasArgs := true
  message := some "3 items".toList
  excInfo := some ⟨some "ValueError".toList, some [some "bad".toList], some "Traceback".toList⟩
  vars := [("name".toList, strVal "app".toList), ("user".toList, strVal "bob".toList), ("code.lineno".toList, .atom (.int 1 true))]

/-- **C78**, refuted: `logger.warning("%d items", "three")` raises `TypeError` in the application; the handlers of the standard library report
such errors on stderr and go on. -/
theorem C78_bad_arguments (U : DigitTable) (e : Limits.Env) (ctx : Ctx) (now : Int) (res : Nat) :
    emit U e none ctx now (.sdk false res) { sample with message := none } = none := by
  rw [C78_raises_iff]
  rintro ⟨_, h⟩
  exact h rfl

example : Printable none sample := ⟨by intro e l h; cases h; simp, by simp [body, sample]⟩
example (U : DigitTable) : ((emit U {} none [] 9 (.sdk false 0) sample).map fun l => l.map fun p => p.2.attributes.d) =
    some [[("user".toList, strVal "bob".toList), ("code.lineno".toList, .atom (.int 7 true)), ("code.filepath".toList, strVal "a.py".toList),
      ("code.function".toList, strVal "f".toList), ("exception.type".toList, strVal "ValueError".toList),
      ("exception.message".toList, strVal "bad".toList), ("exception.stacktrace".toList, strVal "Traceback".toList)]] := by
  simp only [emit, translate, limits_eq]
  decide +kernel

end LoggingHandler
end Otel
