import Verif.Spec.HttpWire
import Verif.Props.OtlpExport
import Mathlib.Data.List.Induction
import Mathlib.Tactic.SplitIfs
/-!
# The requests of the HTTP exporters
-/
namespace Otel
namespace HttpWire
open OtlpConfig (header header_append Http Compression Signal)
open Export (HttpAnswer Outcome)
variable {D : Type}

theorem run_snoc (k : Codec D) (evs : List (Ev D)) (e : Ev D) : run k (evs ++ [e]) = step k (run k evs) e := by simp [run]

/-- What an exporter is, apart from its flag. -/
def Exporter.core (e : Exporter) : Signal × Http × Nat := (e.signal, e.cfg, e.session)

/-- Exporters stay. -/
theorem cores_step (k : Codec D) (st : State D) (ev : Ev D) (i : Nat) (e : Exporter) (h : st.exporters[i]? = some e) :
    ∃ e', (step k st ev).exporters[i]? = some e' ∧ e'.core = e.core := by
  have hi : i < st.exporters.length := by
    by_contra hn
    rw [List.getElem?_eq_none (by omega)] at h
    cases h
  cases ev with
  | session ds => exact ⟨e, h, rfl⟩
  | header s n v => exact ⟨e, h, rfl⟩
  | make sig cfg s ds =>
    cases s with
    | none => exact ⟨e, by simpa [step, List.getElem?_append_left hi] using h, rfl⟩
    | some s =>
      simp only [step]
      split_ifs
      · exact ⟨e, by simpa [List.getElem?_append_left hi] using h, rfl⟩
      · exact ⟨e, h, rfl⟩
  | send j data answers =>
    simp only [step]
    split
    · exact ⟨e, h, rfl⟩
    · exact ⟨e, h, rfl⟩
  | shutdown j =>
    simp only [step]
    split
    · exact ⟨e, h, rfl⟩
    · rename_i e0 he0
      split_ifs
      · exact ⟨e, h, rfl⟩
      · by_cases hj : j = i
        · subst hj
          rw [h] at he0
          cases he0
          exact ⟨{ e with down := true }, by simp [hi], rfl⟩
        · exact ⟨e, by simpa [List.getElem?_set_ne hj] using h, rfl⟩

/-! ## The declared encoding -/

theorem header_nil (n : Str) : header [] n = none := rfl

theorem header_other (n v m : Str) (h : EnvHeaders.lowerAscii n ≠ EnvHeaders.lowerAscii m) : header [(n, v)] m = none := by
  simp [header, h]

theorem decoded (d : Decoder D) (k : Codec D) (hd : d.Of k) (c : Compression) (i : Nat) (hs : List (Str × Str)) (u : Str) (x : D)
    (h : header hs contentEncoding = declared c) : (Request.mk i hs u (encode k c x)).data d = some x := by
  unfold Request.data
  simp only [h]
  cases c with
  | noCompression => rfl
  | gzip =>
    simp only [declared, Compression.value]
    rw [if_pos trivial]
    exact hd.1 x
  | deflate =>
    simp only [declared, Compression.value]
    rw [if_neg (by decide), if_pos trivial]
    exact hd.2 x

structure Inv (comp : Nat → Compression) (evs : List (Ev D)) (d : Decoder D) (st : State D) : Prop where
  sess : ∀ s h, st.sessions[s]? = some h → header h contentEncoding = none ∨ header h contentEncoding = declared (comp s)
  exps : ∀ e ∈ st.exporters, ∃ h, st.sessions[e.session]? = some h ∧ header h contentEncoding = declared e.cfg.compression
  reqs : ∀ r ∈ st.requests, ∃ data answers, Ev.send r.exporter data answers ∈ evs ∧ r.data d = some data

/-- Adding headers that declare nothing, or what all declare, to a session. -/
theorem inv_update (comp : Nat → Compression) (evs : List (Ev D)) (d : Decoder D) (st : State D) (h : Inv comp evs d st) (s : Nat) (hs : List (Str × Str))
    (hh : header hs contentEncoding = none ∨ header hs contentEncoding = declared (comp s)) (hc : ∀ e ∈ st.exporters, e.session = s → e.cfg.compression = comp s) :
    Inv comp evs d (st.update s hs) := by
  refine ⟨?_, ?_, h.reqs⟩
  · intro s' h' he
    simp only [State.update, List.getElem?_modify] at he
    by_cases e : s = s'
    · subst e
      cases hs0 : st.sessions[s]? with
      | none => simp [hs0] at he
      | some h0 =>
        simp only [hs0, if_true, Option.map_eq_map, Option.map_some, Option.some.injEq] at he
        subst he
        rw [header_append]
        rcases hh with hh | hh
        · rw [hh, Option.none_or]
          exact h.sess s h0 hs0
        · rw [hh]
          cases hd : declared (comp s) with
          | none =>
            rw [Option.none_or]
            have := h.sess s h0 hs0
            rwa [hd] at this
          | some v => exact .inr rfl
    · simp only [e, if_false, id_eq, Option.map_eq_map, Option.map_id'] at he
      exact h.sess s' h' he
  · intro e he
    obtain ⟨h0, h1, h2⟩ := h.exps e he
    by_cases es : s = e.session
    · refine ⟨h0 ++ hs, by simp [State.update, List.getElem?_modify, es, h1], ?_⟩
      rw [header_append, h2]
      rw [hc e he es.symm]
      rcases hh with hh | hh
      · rw [hh, Option.none_or]
      · rw [hh, Option.or_self]
    · exact ⟨h0, by simp [State.update, List.getElem?_modify, es, h1], h2⟩

theorem inv_mono (comp : Nat → Compression) (evs : List (Ev D)) (ev : Ev D) (d : Decoder D) (st : State D) (h : Inv comp evs d st) : Inv comp (evs ++ [ev]) d st :=
  ⟨h.sess, h.exps, fun r hr => by
    obtain ⟨x, a, h1, h2⟩ := h.reqs r hr
    exact ⟨x, a, List.mem_append_left _ h1, h2⟩⟩

theorem inv_run (k : Codec D) (d : Decoder D) (hd : d.Of k) (comp : Nat → Compression) (evs : List (Ev D)) (hp : ∀ ev ∈ evs, Plain ev)
    (hc : ∀ e ∈ (run k evs).exporters, e.cfg.compression = comp e.session) : Inv comp evs d (run k evs) := by
  induction evs using List.reverseRecOn with
  | nil => exact ⟨fun s h hs => by simp [run] at hs, fun e he => by simp [run] at he, fun r hr => by simp [run] at hr⟩
  | append_singleton evs ev ih =>
    have hpe : Plain ev := hp ev (by simp)
    have hc0 : ∀ e ∈ (run k evs).exporters, e.cfg.compression = comp e.session := by
      intro e he
      obtain ⟨i, hi⟩ := List.mem_iff_getElem?.1 he
      obtain ⟨e', h1, h2⟩ := cores_step k _ ev i e hi
      have h3 := hc e' (by rw [run_snoc]; exact List.mem_iff_getElem?.2 ⟨i, h1⟩)
      simp only [Exporter.core, Prod.mk.injEq] at h2
      rw [h2.2.1, h2.2.2] at h3
      exact h3
    have ih := ih (fun e he => hp e (List.mem_append_left _ he)) hc0
    rw [run_snoc] at hc ⊢
    generalize run k evs = st at *
    cases ev with
    | session ds =>
      refine ⟨?_, ?_, (inv_mono comp evs _ d st ih).reqs⟩
      · intro s h hs
        simp only [step] at hs
        rcases Nat.lt_trichotomy s st.sessions.length with hl | hl | hl
        · rw [List.getElem?_append_left hl] at hs
          exact ih.sess s h hs
        · subst hl
          simp only [List.getElem?_append_right (Nat.le_refl _), Nat.sub_self, List.getElem?_cons_zero, Option.some.injEq] at hs
          subst hs
          exact .inl hpe
        · rw [List.getElem?_eq_none (by simp; omega)] at hs
          cases hs
      · intro e he
        obtain ⟨h0, h1, h2⟩ := ih.exps e he
        have hl : e.session < st.sessions.length := by
          by_contra hn
          rw [List.getElem?_eq_none (by omega)] at h1
          cases h1
        exact ⟨h0, by simp only [step]; rw [List.getElem?_append_left hl]; exact h1, h2⟩
    | header s n v => exact inv_mono comp evs _ d _ (inv_update comp evs d st ih s _ (.inl (header_other _ _ _ hpe)) fun e he es => by rw [hc0 e he, es])
    | make sig cfg s ds =>
      obtain ⟨hp1, hp2⟩ := hpe
      cases s with
      | some s =>
        simp only [step] at hc ⊢
        split_ifs at hc ⊢ with hs
        · have hcs : cfg.compression = comp s := by simpa using hc ⟨sig, cfg, s, false⟩ (by simp)
          have hu := inv_update comp evs d st ih s cfg.headers (.inr (by rw [hp2, hcs])) fun e he es => by rw [hc0 e he, es]
          refine ⟨hu.sess, ?_, (inv_mono comp evs _ d _ hu).reqs⟩
          intro e he
          rcases List.mem_append.1 he with he | he
          · exact hu.exps e he
          · rw [List.mem_singleton] at he
            subst he
            have h0 : st.sessions[s]? = some st.sessions[s] := List.getElem?_eq_getElem hs
            refine ⟨st.sessions[s] ++ cfg.headers, by simp [State.update, List.getElem?_modify, h0], ?_⟩
            rw [header_append, hp2]
            rcases ih.sess s _ h0 with g | g
            · rw [g, Option.or_none]
            · rw [g, hcs, Option.or_self]
        · exact inv_mono comp evs _ d _ ih
      | none =>
        refine ⟨?_, ?_, (inv_mono comp evs _ d st ih).reqs⟩
        · intro s h hs
          simp only [step] at hs
          rcases Nat.lt_trichotomy s st.sessions.length with hl | hl | hl
          · rw [List.getElem?_append_left hl] at hs
            exact ih.sess s h hs
          · subst hl
            simp only [List.getElem?_append_right (Nat.le_refl _), Nat.sub_self, List.getElem?_cons_zero, Option.some.injEq] at hs
            subst hs
            have hcs : cfg.compression = comp st.sessions.length := by simpa using hc ⟨sig, cfg, st.sessions.length, false⟩ (by simp [step])
            rw [header_append, hp1, hp2, Option.or_none, hcs]
            exact .inr rfl
          · rw [List.getElem?_eq_none (by simp; omega)] at hs
            cases hs
        · intro e he
          simp only [step] at he ⊢
          rcases List.mem_append.1 he with he | he
          · obtain ⟨h0, h1, h2⟩ := ih.exps e he
            have hl : e.session < st.sessions.length := by
              by_contra hn
              rw [List.getElem?_eq_none (by omega)] at h1
              cases h1
            exact ⟨h0, by rw [List.getElem?_append_left hl]; exact h1, h2⟩
          · rw [List.mem_singleton] at he
            subst he
            refine ⟨ds ++ cfg.headers, by simp, ?_⟩
            rw [header_append, hp1, hp2, Option.or_none]
    | send i data answers =>
      have hm := inv_mono comp evs (.send i data answers) d st ih
      simp only [step]
      split
      · exact hm
      · rename_i e he
        refine ⟨hm.sess, hm.exps, ?_⟩
        intro r hr
        rcases List.mem_append.1 hr with hr | hr
        · exact hm.reqs r hr
        · have hr' := List.eq_of_mem_replicate hr
          subst hr'
          obtain ⟨h0, h1, h2⟩ := ih.exps e (List.mem_iff_getElem?.2 ⟨i, he⟩)
          exact ⟨data, answers, by simp, by rw [h1]; exact decoded d k hd _ _ _ _ _ h2⟩
    | shutdown i =>
      have hm := inv_mono comp evs (.shutdown i) d st ih
      simp only [step]
      split
      · exact hm
      · rename_i e he
        split_ifs
        · exact hm
        · refine ⟨hm.sess, ?_, hm.reqs⟩
          intro x hx
          rcases List.mem_or_eq_of_mem_set hx with hx | rfl
          · exact hm.exps x hx
          · exact hm.exps e (List.mem_iff_getElem?.2 ⟨i, he⟩)

/-- **C115** If the exporters on each session use the same compression (in particular if each has its own session) and the program sets no `Content-Encoding` itself, then every request
ever made carries data that its exporter was given, and a server that decodes the body as the request's headers say gets exactly that data. -/
theorem C115_decoded (k : Codec D) (d : Decoder D) (hd : d.Of k) (comp : Nat → Compression) (evs : List (Ev D)) (hp : ∀ ev ∈ evs, Plain ev)
    (hc : ∀ e ∈ (run k evs).exporters, e.cfg.compression = comp e.session) (r : Request D) (hr : r ∈ (run k evs).requests) :
    ∃ data answers, Ev.send r.exporter data answers ∈ evs ∧ r.data d = some data := (inv_run k d hd comp evs hp hc).reqs r hr

/-- **C115** The configuration of an exporter is honest, unless it does not compress and is given a header `Content-Encoding`: by the argument, or the variables. -/
theorem C115_honest (U : DigitTable) (agent : Str) (env : OtlpConfig.Environ) (s : Signal) (a : OtlpConfig.HttpArgs) (c : Http) (h : OtlpConfig.http U agent env s a = some c)
    (hg : c.compression = .noCompression → header (OtlpConfig.httpHeaders env s a.headers) contentEncoding = none) : Honest c := by
  unfold Honest
  by_cases hc : c.compression = .noCompression
  · replace hg := hg hc
    unfold OtlpConfig.http at h
    simp only at h
    split at h
    · cases h
    · split at h
      · cases h
      · cases h
        simp only at hc ⊢
        subst hc
        rw [if_pos rfl, List.append_nil, header_append, hg, Option.or_none]
        rfl
  · have := (OtlpConfig.C79_http_request U agent env s a c h).2.2.2.2.2.2.1 hc
    rw [show contentEncoding = "Content-Encoding".toList from rfl, this]
    cases hk : c.compression with
    | noCompression => exact absurd hk hc
    | gzip => rfl
    | deflate => rfl

/-! ## Headers -/

structure Own (st : State D) : Prop where
  lt : ∀ r ∈ st.requests, r.exporter < st.exporters.length
  sess : ∀ e ∈ st.exporters, e.session < st.sessions.length

theorem own_step (k : Codec D) (st : State D) (ev : Ev D) (h : Own st) : Own (step k st ev) := by
  cases ev with
  | session ds => exact ⟨h.lt, fun e he => by have := h.sess e he; simp only [step, List.length_append, List.length_singleton]; omega⟩
  | header s n v => exact ⟨h.lt, fun e he => by simpa [step, State.update] using h.sess e he⟩
  | make sig cfg s ds =>
    cases s with
    | some s =>
      simp only [step]
      split_ifs with hs
      · refine ⟨fun r hr => by have := h.lt r hr; simp only [List.length_append, List.length_singleton]; omega, fun e he => ?_⟩
        simp only [State.update, List.length_modify]
        rcases List.mem_append.1 he with he | he
        · exact h.sess e he
        · rw [List.mem_singleton] at he
          subst he
          exact hs
      · exact h
    | none =>
      refine ⟨fun r hr => by have := h.lt r hr; simp only [step, List.length_append, List.length_singleton]; omega, fun e he => ?_⟩
      simp only [step, List.length_append, List.length_singleton] at he ⊢
      rcases List.mem_append.1 he with he | he
      · have := h.sess e he
        omega
      · rw [List.mem_singleton] at he
        subst he
        simp
  | send i data answers =>
    simp only [step]
    split
    · exact h
    · rename_i e he
      refine ⟨fun r hr => ?_, h.sess⟩
      rcases List.mem_append.1 hr with hr | hr
      · exact h.lt r hr
      · have hr' := List.eq_of_mem_replicate hr
        subst hr'
        by_contra hn
        rw [List.getElem?_eq_none (by simpa using hn)] at he
        cases he
  | shutdown i =>
    simp only [step]
    split
    · exact h
    · rename_i e he
      split_ifs
      · exact h
      · refine ⟨fun r hr => by simpa using h.lt r hr, fun x hx => ?_⟩
        rcases List.mem_or_eq_of_mem_set hx with hx | rfl
        · exact h.sess x hx
        · exact h.sess e (List.mem_iff_getElem?.2 ⟨i, he⟩)

theorem own_run (k : Codec D) (evs : List (Ev D)) : Own (run k evs) := by
  induction evs using List.reverseRecOn with
  | nil => exact ⟨fun r hr => by simp [run] at hr, fun e he => by simp [run] at he⟩
  | append_singleton evs ev ih => rw [run_snoc]; exact own_step k _ ev ih

/-- **C115** An exporter that shares its session with no other, and whose session's headers the program leaves alone, sends its requests to its own URL, with each header as it is
configured (`C79_http_request`); the other headers are the session's. -/
theorem C115_headers (k : Codec D) (evs : List (Ev D)) (i : Nat) (e : Exporter) (he : (run k evs).exporters[i]? = some e)
    (halone : ∀ j e', (run k evs).exporters[j]? = some e' → e'.session = e.session → j = i) (hun : Untouched e.session evs) :
    ∀ r ∈ (run k evs).of i, r.url = e.cfg.url ∧ ∀ n v, header e.cfg.headers n = some v → header r.headers n = some v := by
  have key : (∃ ds, (run k evs).sessions[e.session]? = some (ds ++ e.cfg.headers)) ∧ ∀ r ∈ (run k evs).requests, r.exporter = i → r.url = e.cfg.url ∧ ∃ ds, r.headers = ds ++ e.cfg.headers := by
    induction evs using List.reverseRecOn generalizing e with
    | nil => simp [run] at he
    | append_singleton evs ev ih =>
      have hO := own_run k evs
      by_cases hi : i < (run k evs).exporters.length
      · have hold : (run k evs).exporters[i]? = some (run k evs).exporters[i] := List.getElem?_eq_getElem hi
        obtain ⟨e', h1, h2⟩ := cores_step k _ ev i _ hold
        rw [run_snoc] at he
        rw [h1] at he
        cases he
        simp only [Exporter.core, Prod.mk.injEq] at h2
        have ih := ih _ hold (fun j x hx hs => by
          obtain ⟨x', g1, g2⟩ := cores_step k _ ev j x hx
          simp only [Exporter.core, Prod.mk.injEq] at g2
          refine halone j x' (by rw [run_snoc]; exact g1) ?_
          rw [g2.2.2, hs, h2.2.2]) (fun n v hm => hun n v (by rw [h2.2.2]; exact List.mem_append_left _ hm))
        rw [← h2.2.1, ← h2.2.2] at ih
        rw [run_snoc]
        rw [run_snoc] at halone
        obtain ⟨⟨ds, ih1⟩, ih2⟩ := ih
        have hne : ∀ n v, ev ≠ .header e.session n v := fun n v hv => hun n v (by simp [hv])
        have hlen := hO.sess _ (List.mem_iff_getElem?.2 ⟨i, hold⟩)
        rw [← h2.2.2] at hlen
        generalize hst : run k evs = st at *
        cases ev with
        | session ds' => exact ⟨⟨ds, by simp only [step]; rw [List.getElem?_append_left hlen]; exact ih1⟩, ih2⟩
        | header s n v =>
          have : s ≠ e.session := fun es => hne n v (by rw [es])
          exact ⟨⟨ds, by simp [step, State.update, List.getElem?_modify, this, ih1]⟩, ih2⟩
        | make sig cfg s ds' =>
          cases s with
          | none => exact ⟨⟨ds, by simp only [step]; rw [List.getElem?_append_left hlen]; exact ih1⟩, ih2⟩
          | some s =>
            simp only [step] at halone ⊢
            split_ifs at halone ⊢ with hs
            · have : s ≠ e.session := by
                intro es
                have := halone st.exporters.length ⟨sig, cfg, s, false⟩ (by simp) es
                omega
              exact ⟨⟨ds, by simp [State.update, List.getElem?_modify, this, ih1]⟩, ih2⟩
            · exact ⟨⟨ds, ih1⟩, ih2⟩
        | send j data answers =>
          simp only [step]
          cases hj : st.exporters[j]? with
          | none => exact ⟨⟨ds, ih1⟩, ih2⟩
          | some x =>
            refine ⟨⟨ds, ih1⟩, fun r hr hri => ?_⟩
            rcases List.mem_append.1 hr with hr | hr
            · exact ih2 r hr hri
            · have hr' := List.eq_of_mem_replicate hr
              subst hr'
              simp only at hri
              subst hri
              rw [hj] at hold
              cases hold
              exact ⟨by rw [h2.2.1], ds, by simp only [← h2.2.2, ih1, Option.getD_some]⟩
        | shutdown j =>
          simp only [step]
          cases hj : st.exporters[j]? with
          | none => exact ⟨⟨ds, ih1⟩, ih2⟩
          | some x =>
            simp only
            split_ifs
            · exact ⟨⟨ds, ih1⟩, ih2⟩
            · exact ⟨⟨ds, ih1⟩, ih2⟩
      · -- the exporter is made now
        rw [run_snoc] at he halone ⊢
        generalize hst : run k evs = st at *
        have hno : ∀ r ∈ st.requests, r.exporter ≠ i := fun r hr hri => hi (by rw [← hri]; exact hO.lt r hr)
        cases ev with
        | session ds' => exact absurd (List.getElem?_eq_some_iff.1 he).1 hi
        | header s n v => exact absurd (List.getElem?_eq_some_iff.1 he).1 hi
        | send j data answers =>
          simp only [step] at he
          split at he
          · exact absurd (List.getElem?_eq_some_iff.1 he).1 hi
          · exact absurd (List.getElem?_eq_some_iff.1 he).1 hi
        | shutdown j =>
          simp only [step] at he
          split at he
          · exact absurd (List.getElem?_eq_some_iff.1 he).1 hi
          · split_ifs at he
            · exact absurd (List.getElem?_eq_some_iff.1 he).1 hi
            · exact absurd (by simpa using (List.getElem?_eq_some_iff.1 he).1) hi
        | make sig cfg s ds' =>
          cases s with
          | none =>
            simp only [step] at he ⊢
            have hil : i = st.exporters.length := by
              have := (List.getElem?_eq_some_iff.1 he).1
              simp only [List.length_append, List.length_singleton] at this
              omega
            subst hil
            simp only [List.getElem?_append_right (Nat.le_refl _), Nat.sub_self, List.getElem?_cons_zero, Option.some.injEq] at he
            subst he
            exact ⟨⟨ds', by simp⟩, fun r hr hri => absurd hri (hno r hr)⟩
          | some s =>
            simp only [step] at he ⊢
            split_ifs at he ⊢ with hs
            · have hil : i = st.exporters.length := by
                have := (List.getElem?_eq_some_iff.1 he).1
                simp only [List.length_append, List.length_singleton] at this
                omega
              subst hil
              simp only [List.getElem?_append_right (Nat.le_refl _), Nat.sub_self, List.getElem?_cons_zero, Option.some.injEq] at he
              subst he
              have h0 : st.sessions[s]? = some st.sessions[s] := List.getElem?_eq_getElem hs
              exact ⟨⟨st.sessions[s], by simp [State.update, List.getElem?_modify, h0]⟩, fun r hr hri => absurd hri (hno r hr)⟩
            · exact absurd (List.getElem?_eq_some_iff.1 he).1 hi
  intro r hr
  simp only [State.of, List.mem_filter, decide_eq_true_eq] at hr
  obtain ⟨h1, ds, h2⟩ := key.2 r hr.1 hr.2
  refine ⟨h1, fun n v hv => ?_⟩
  rw [h2, header_append, hv]
  rfl

/-! ## How many requests -/

theorem tries_eq (acts : List Export.Act) : tries acts = (Export.attempts acts).length := by
  induction acts with
  | nil => rfl
  | cons a l ih => cases a <;> simp_all [tries, Export.attempts]

theorem tries_bound (e : Exporter) (answers : Nat → HttpAnswer) : tries (attempts e answers).2 ≤ 6 := by
  have key : ∀ v, tries (Export.loop (fun _ => false) v 0).2 ≤ 6 := by
    intro v
    obtain ⟨n, h1, h2, _⟩ := Export.C46_attempts (fun _ => false) v
    rw [tries_eq, h2, List.length_range]
    exact h1
  unfold attempts Export.httpExport Export.httpMetricExport
  cases e.signal with
  | metrics => exact key _
  | traces =>
    simp only
    split_ifs
    · exact Nat.zero_le _
    · exact key _
  | logs =>
    simp only
    split_ifs
    · exact Nat.zero_le _
    · exact key _

/-- **C115** A call of `export` sends one request, up to six times, unchanged; nothing else sends requests. -/
theorem C115_requests (k : Codec D) (st : State D) (ev : Ev D) :
    (step k st ev).requests = st.requests ∨
    ∃ i data answers r n, ev = .send i data answers ∧ n ≤ 6 ∧ r.exporter = i ∧ (step k st ev).requests = st.requests ++ List.replicate n r := by
  cases ev with
  | session ds => exact .inl rfl
  | header s n v => exact .inl rfl
  | make sig cfg s ds =>
    cases s with
    | none => exact .inl rfl
    | some s =>
      simp only [step]
      split_ifs
      · exact .inl rfl
      · exact .inl rfl
  | send i data answers =>
    cases he : st.exporters[i]? with
    | none => exact .inl (by simp only [step, he])
    | some e =>
      refine .inr ⟨i, data, answers, _, _, rfl, tries_bound e answers, ?_, by simp only [step, he]; rfl⟩
      rfl
  | shutdown i =>
    simp only [step]
    split
    · exact .inl rfl
    · split_ifs
      · exact .inl rfl
      · exact .inl rfl

/-- **C115** A call of `export` on an exporter that is not shut down does send: its request is made at least once, with the data in the body. -/
theorem C115_sends (k : Codec D) (st : State D) (i : Nat) (e : Exporter) (h : st.exporters[i]? = some e) (hd : e.down = false) (data : D) (answers : Nat → HttpAnswer) :
    ∃ r n, 0 < n ∧ r.exporter = i ∧ r.body = encode k e.cfg.compression data ∧ (step k st (.send i data answers)).requests = st.requests ++ List.replicate n r := by
  refine ⟨_, _, ?_, ?_, ?_, by simp only [step, h]; rfl⟩
  · have key : ∀ v, 0 < tries (Export.loop (fun _ => false) v 0).2 := by
      intro v
      rw [Export.loop, dif_neg (Export.backoff_lt 0 (by decide)).2]
      simp only [Bool.false_eq_true, if_false]
      split
      · simp [tries]
      · simp [tries]
      · simp [tries]
      · split_ifs
        · simp [tries]
        · simp [tries]
    unfold attempts Export.httpExport Export.httpMetricExport
    cases e.signal with
    | metrics => exact key _
    | traces => simp only [hd]; exact key _
    | logs => simp only [hd]; exact key _
  · rfl
  · rfl

/-- An exporter of spans or logs that is down stays down. -/
theorem down_step (k : Codec D) (st : State D) (ev : Ev D) (i : Nat) (e : Exporter) (h : st.exporters[i]? = some e) (hd : e.down = true) (hs : e.signal ≠ .metrics) :
    ∃ e', (step k st ev).exporters[i]? = some e' ∧ e'.down = true ∧ e'.signal ≠ .metrics := by
  have hi : i < st.exporters.length := (List.getElem?_eq_some_iff.1 h).1
  cases ev with
  | session ds => exact ⟨e, h, hd, hs⟩
  | header s n v => exact ⟨e, h, hd, hs⟩
  | make sig cfg s ds =>
    cases s with
    | none => exact ⟨e, by simpa [step, List.getElem?_append_left hi] using h, hd, hs⟩
    | some s =>
      simp only [step]
      split_ifs
      · exact ⟨e, by simpa [List.getElem?_append_left hi] using h, hd, hs⟩
      · exact ⟨e, h, hd, hs⟩
  | send j data answers =>
    simp only [step]
    split
    · exact ⟨e, h, hd, hs⟩
    · exact ⟨e, h, hd, hs⟩
  | shutdown j =>
    simp only [step]
    split
    · exact ⟨e, h, hd, hs⟩
    · rename_i e0 he0
      split_ifs
      · exact ⟨e, h, hd, hs⟩
      · by_cases hj : j = i
        · subst hj
          rw [h] at he0
          cases he0
          exact ⟨{ e with down := true }, by simp [hi], rfl, hs⟩
        · exact ⟨e, by simpa [List.getElem?_set_ne hj] using h, hd, hs⟩

/-- **C115** After `shutdown` an exporter of spans or logs sends no requests any more, whatever is done with it or with the other exporters, also those on its session. -/
theorem C115_shutdown (k : Codec D) (evs evs' : List (Ev D)) (i : Nat) (e : Exporter) (h : (run k evs).exporters[i]? = some e) (hs : e.signal ≠ .metrics) :
    (run k (evs ++ [.shutdown i] ++ evs')).of i = (run k evs).of i := by
  have key : (run k (evs ++ [.shutdown i] ++ evs')).of i = (run k evs).of i ∧
      ∃ e', (run k (evs ++ [.shutdown i] ++ evs')).exporters[i]? = some e' ∧ e'.down = true ∧ e'.signal ≠ .metrics := by
    induction evs' using List.reverseRecOn with
    | nil =>
      rw [List.append_nil, run_snoc]
      generalize run k evs = st at *
      have hi : i < st.exporters.length := (List.getElem?_eq_some_iff.1 h).1
      simp only [step, h, hs, if_false]
      exact ⟨rfl, { e with down := true }, by simp [hi], rfl, hs⟩
    | append_singleton evs' ev ih =>
      rw [← List.append_assoc, run_snoc]
      obtain ⟨ih1, e', g1, g2, g3⟩ := ih
      refine ⟨?_, down_step k _ ev i e' g1 g2 g3⟩
      rw [← ih1]
      generalize run k (evs ++ [.shutdown i] ++ evs') = st at *
      rcases C115_requests k st ev with hr | ⟨j, data, answers, r, n, rfl, hn, hj, hr⟩
      · simp only [State.of, hr]
      · by_cases hji : j = i
        · subst hji
          simp only [State.of, step, g1]
          have : attempts e' answers = (.failure, []) := by
            unfold attempts
            cases hsig : e'.signal with
            | metrics => exact absurd hsig g3
            | traces => simp [Export.httpExport, g2]
            | logs => simp [Export.httpExport, g2]
          simp [this, tries]
        · simp only [State.of, hr, List.filter_append]
          have : (List.replicate n r).filter (fun r => r.exporter = i) = [] := by
            rw [List.filter_eq_nil_iff]
            intro x hx
            rw [List.eq_of_mem_replicate hx, hj]
            simpa using hji
          rw [this, List.append_nil]
  exact key.1

/-! ## Where it fails -/

theorem fine_attempts (e : Exporter) (h : e.down = false) : attempts e fine = (.success, [.attempt 0]) := by
  have : Export.loop (fun _ => false) (fun i => Export.httpVerdict (fine i)) 0 = (.success, [.attempt 0]) := by
    rw [Export.loop, dif_neg (Export.backoff_lt 0 (by decide)).2]
    rfl
  unfold attempts Export.httpExport Export.httpMetricExport
  cases e.signal <;> simp [h, this]

/-- **C115**, refuted in part: two exporters on one session, of which the first compresses and the second does not. Every request of the second declares the first's compression and has an
uncompressed body: what a server makes of it is left to chance, whatever the data. -/
theorem C115_encoding_violated (k : Codec D) (d : Decoder D) (ds : List (Str × Str)) (a b : Http) (ha : a.compression = .gzip) (hb : b.compression = .noCompression) (hha : Honest a)
    (hhb : Honest b) (data : D) :
    ∃ r, (run k [.session ds, .make .traces a (some 0) [], .make .logs b (some 0) [], .send 1 data fine]).requests = [r] ∧ r.exporter = 1 ∧
      header r.headers contentEncoding = some "gzip".toList ∧ r.body = data ∧ r.data d = d.gunzip data := by
  have h : header (ds ++ a.headers ++ b.headers) contentEncoding = some "gzip".toList := by
    rw [header_append, header_append, hha, hhb, ha, hb]
    rfl
  refine ⟨⟨1, ds ++ a.headers ++ b.headers, b.url, data⟩, ?_, rfl, h, rfl, ?_⟩
  · simp [run, step, State.update, fine_attempts, tries, encode, hb]
  · unfold Request.data
    simp only [h, if_true]

/-- **C115**, refuted in part: a header given to one exporter, an API key, say, goes with the requests of every other exporter on its session, to the other's URL. -/
theorem C115_leak_violated (k : Codec D) (ds : List (Str × Str)) (a b : Http) (n key : Str) (ha : header a.headers n = some key) (hb : header b.headers n = none) (data : D) :
    ∃ r, (run k [.session ds, .make .traces a (some 0) [], .make .logs b (some 0) [], .send 1 data fine]).requests = [r] ∧ r.exporter = 1 ∧ r.url = b.url ∧
      header r.headers n = some key := by
  refine ⟨⟨1, ds ++ a.headers ++ b.headers, b.url, encode k b.compression data⟩, ?_, rfl, rfl, ?_⟩
  · simp [run, step, State.update, fine_attempts, tries]
  · rw [header_append, header_append, ha, hb]
    rfl

/-- **C115**, refuted in part: a header `Content-Encoding` that is given, by the argument or the variables, to an exporter that does not compress is sent, although nothing is compressed. -/
theorem C115_given_violated (U : DigitTable) (agent : Str) (env : OtlpConfig.Environ) (s : Signal) (a : OtlpConfig.HttpArgs) (c : Http) (h : OtlpConfig.http U agent env s a = some c)
    (hc : c.compression = .noCompression) (v : Str) (hv : header (OtlpConfig.httpHeaders env s a.headers) contentEncoding = some v) (k : Codec D) (ds : List (Str × Str)) (data : D) :
    ∃ r, (run k [.make s c none ds, .send 0 data fine]).requests = [r] ∧ r.body = data ∧ header r.headers contentEncoding = some v := by
  have hh : header c.headers contentEncoding = some v := by
    unfold OtlpConfig.http at h
    simp only at h
    split at h
    · cases h
    · split at h
      · cases h
      · cases h
        simp only at hc ⊢
        subst hc
        rw [if_pos rfl, List.append_nil, header_append, hv]
        rfl
  refine ⟨⟨0, ds ++ c.headers, c.url, data⟩, ?_, rfl, ?_⟩
  · simp [run, step, fine_attempts, tries, encode, hc]
  · rw [header_append, hh]
    rfl

/-- **C115**, refuted in part: `shutdown` does not stop the exporter of metrics. -/
theorem C115_metrics_violated (k : Codec D) (ds : List (Str × Str)) (a : Http) (data : D) :
    (run k [.make .metrics a none ds, .shutdown 0, .send 0 data fine]).requests.length = 1 ∧ (run k [.make .metrics a none ds, .shutdown 0, .send 0 data fine]).results = [.success] := by
  constructor
  · simp [run, step, fine_attempts, tries]
  · simp [run, step, fine_attempts]

/-- A configuration that compresses. -/
def exampleCfg (c : Compression) : Http :=
  ⟨"http://a".toList, none, .none, [("api-key".toList, "x".toList)] ++ (if c = .noCompression then [] else [("Content-Encoding".toList, c.value)]), 10, c⟩

theorem example_honest : Honest (exampleCfg .gzip) ∧ Honest (exampleCfg .noCompression) := by
  unfold Honest
  decide

/-- The hypotheses of `C115_decoded` and `C115_headers` are met by a program with two exporters, each with its own session, as with the two configurations above. -/
example (k : Codec D) (data : D) (a b : Http) (ha : Honest a) (hb : Honest b) : let evs : List (Ev D) := [.make .traces a none [], .make .logs b none [], .send 0 data fine]
    (∀ ev ∈ evs, Plain ev) ∧ (∀ e ∈ (run k evs).exporters, e.cfg.compression = if e.session = 0 then a.compression else b.compression) ∧ (run k evs).requests.length = 1 ∧ Untouched 0 evs := by
  refine ⟨?_, ?_, ?_, ?_⟩
  · intro ev hev
    simp only [List.mem_cons, List.not_mem_nil, or_false] at hev
    rcases hev with rfl | rfl | rfl
    · exact ⟨rfl, ha⟩
    · exact ⟨rfl, hb⟩
    · trivial
  · simp [run, step]
  · simp [run, step, fine_attempts, tries]
  · intro n v h
    simp at h

end HttpWire
end Otel
