/-
C90: start and end of the server process.
-/
import Verif.Model.Process

namespace Verif.Props
open Process

/-- The sockets the configuration asks for. -/
def ConfiguredOn (p : Ports) (s : Sock) : Prop :=
  match s.net with
  | .udp => s.addr ∈ p.dns
  | .tcp => s.addr ∈ p.dns
  | .tcpTls => s.addr ∈ p.tls
  | .http => s.addr ∈ p.http
  | .https => s.addr ∈ p.https

/-- All sockets of a process. -/
def sockets (s : Process.St) : List Sock := (s.dns ++ s.http).map Srv.sock

theorem onSrv_some {l l' : List Srv} {i : Nat} {cond : Srv → Bool} {f : Srv → Srv} (h : onSrv l i cond f = some l') :
    ∃ x, l[i]? = some x ∧ cond x = true ∧ l' = l.set i (f x) := by
  unfold onSrv at h
  split at h
  · next x hx =>
    split at h
    · next hc => cases h; exact ⟨x, hx, hc, rfl⟩
    · cases h
  · cases h

theorem set_map_sock (l : List Srv) (i : Nat) (x y : Srv) (h : l[i]? = some x) (hs : y.sock = x.sock) :
    (l.set i y).map Srv.sock = l.map Srv.sock := by
  induction l generalizing i with
  | nil => rfl
  | cons a l ih =>
    cases i with
    | zero =>
      simp only [List.getElem?_cons_zero, Option.some.injEq] at h
      simp only [List.set_cons_zero, List.map_cons, hs, h]
    | succ i =>
      simp only [List.getElem?_cons_succ] at h
      simp only [List.set_cons_succ, List.map_cons, ih i h]

/-- How one event changes the DNS listeners: nothing, or one of them in one of these ways. -/
inductive Change : Ev → Srv → Srv → Prop where
  | bound {i x} : x.phase = .starting → Change (.bound i) x { x with phase := .serving }
  | bindFails {i x} : x.phase = .starting → Change (.bindFails i) x { x with phase := .failed }
  | breaks {i x} : x.phase = .serving → x.inflight = 0 → Change (.breaks i) x { x with phase := .ended }
  | query {i x} : x.phase = .serving → Change (.query i) x { x with inflight := x.inflight + 1 }
  | answer {i x} : x.inflight > 0 → Change (.answer i) x { x with inflight := x.inflight - 1 }
  | stop {x} : x.phase = .serving → Change .shutdown x { x with phase := .stopping }
  | drained {x} : x.inflight = 0 → Change .drained x { x with phase := .ended }

theorem Change.sock {e : Ev} {x y : Srv} (h : Change e x y) : y.sock = x.sock := by cases h <;> rfl

theorem dns_change (s : Process.St) (e : Ev) :
    (Process.step s e).dns = s.dns ∨ ∃ i x y, s.dns[i]? = some x ∧ Change e x y ∧ (Process.step s e).dns = s.dns.set i y := by
  unfold Process.step
  by_cases hx : s.exited.isSome = true
  · rw [if_pos hx]; exact .inl rfl
  rw [if_neg hx]
  cases e with
  | bound i =>
    simp only
    cases h : onSrv s.dns i (fun x => x.phase == .starting) (fun x => { x with phase := .serving }) with
    | none => exact .inl rfl
    | some l =>
      obtain ⟨x, h1, h2, h3⟩ := onSrv_some h
      exact .inr ⟨i, x, _, h1, .bound (by simpa using h2), h3⟩
  | bindFails i =>
    simp only
    cases hi : s.dns[i]? with
    | none => exact .inl rfl
    | some x0 =>
      cases h : onSrv s.dns i (fun x => x.phase == .starting) (fun x => { x with phase := .failed }) with
      | none => exact .inl rfl
      | some l =>
        obtain ⟨x, h1, h2, h3⟩ := onSrv_some h
        exact .inr ⟨i, x, _, h1, .bindFails (by simpa using h2), h3⟩
  | breaks i =>
    simp only
    cases hi : s.dns[i]? with
    | none => exact .inl rfl
    | some x0 =>
      cases h : onSrv s.dns i (fun x => x.phase == .serving && x.inflight == 0) (fun x => { x with phase := .ended }) with
      | none => exact .inl rfl
      | some l =>
        obtain ⟨x, h1, h2, h3⟩ := onSrv_some h
        simp only [Bool.and_eq_true, beq_iff_eq] at h2
        exact .inr ⟨i, x, _, h1, .breaks h2.1 h2.2, h3⟩
  | httpBreaks i =>
    simp only
    split <;> exact .inl rfl
  | query i =>
    simp only
    cases h : onSrv s.dns i (fun x => x.phase == .serving) (fun x => { x with inflight := x.inflight + 1 }) with
    | none => exact .inl rfl
    | some l =>
      obtain ⟨x, h1, h2, h3⟩ := onSrv_some h
      exact .inr ⟨i, x, _, h1, .query (by simpa using h2), h3⟩
  | answer i =>
    simp only
    cases h : onSrv s.dns i (fun x => decide (x.inflight > 0)) (fun x => { x with inflight := x.inflight - 1 }) with
    | none => exact .inl rfl
    | some l =>
      obtain ⟨x, h1, h2, h3⟩ := onSrv_some h
      exact .inr ⟨i, x, _, h1, .answer (by simpa using h2), h3⟩
  | httpQuery i => simp only; split <;> exact .inl rfl
  | httpAnswer i => simp only; split <;> exact .inl rfl
  | sig => exact .inl rfl
  | takeSignal => simp only; split <;> exact .inl rfl
  | takeError => simp only; split <;> exact .inl rfl
  | shutdown =>
    simp only
    cases hs : s.sup with
    | stop i =>
      simp only
      cases hi : s.dns[i]? with
      | none => exact .inl rfl
      | some x =>
        simp only
        cases hp : x.phase with
        | serving => exact .inr ⟨i, x, _, hi, .stop hp, rfl⟩
        | _ => exact .inl rfl
    | _ => exact .inl rfl
  | drained =>
    simp only
    cases hs : s.sup with
    | drain i =>
      simp only
      cases hi : s.dns[i]? with
      | none => exact .inl rfl
      | some x =>
        simp only
        by_cases h0 : x.inflight = 0
        · rw [if_pos h0]; exact .inr ⟨i, x, _, hi, .drained h0, rfl⟩
        · rw [if_neg h0]; exact .inl rfl
    | _ => exact .inl rfl
  | exit => simp only; split <;> exact .inl rfl

theorem http_change (s : Process.St) (e : Ev) :
    (Process.step s e).http = s.http ∨ ∃ i x y, s.http[i]? = some x ∧ y.sock = x.sock ∧ (Process.step s e).http = s.http.set i y := by
  unfold Process.step
  by_cases hx : s.exited.isSome = true
  · rw [if_pos hx]; exact .inl rfl
  rw [if_neg hx]
  cases e with
  | httpBreaks i =>
    simp only
    cases hi : s.http[i]? with
    | none => exact .inl rfl
    | some x0 =>
      cases h : onSrv s.http i (fun x => x.phase == .serving) (fun x => { x with phase := .ended }) with
      | none => exact .inl rfl
      | some l =>
        obtain ⟨x, h1, h2, h3⟩ := onSrv_some h
        exact .inr ⟨i, x, _, h1, by rfl, h3⟩
  | httpQuery i =>
    simp only
    cases h : onSrv s.http i (fun x => x.phase == .serving) (fun x => { x with inflight := x.inflight + 1 }) with
    | none => exact .inl rfl
    | some l =>
      obtain ⟨x, h1, h2, h3⟩ := onSrv_some h
      exact .inr ⟨i, x, _, h1, by rfl, h3⟩
  | httpAnswer i =>
    simp only
    cases h : onSrv s.http i (fun x => decide (x.inflight > 0)) (fun x => { x with inflight := x.inflight - 1 }) with
    | none => exact .inl rfl
    | some l =>
      obtain ⟨x, h1, h2, h3⟩ := onSrv_some h
      exact .inr ⟨i, x, _, h1, by rfl, h3⟩
  | bound i => simp only; split <;> exact .inl rfl
  | bindFails i => simp only; split <;> exact .inl rfl
  | breaks i => simp only; split <;> exact .inl rfl
  | query i => simp only; split <;> exact .inl rfl
  | answer i => simp only; split <;> exact .inl rfl
  | sig => exact .inl rfl
  | takeSignal => simp only; split <;> exact .inl rfl
  | takeError => simp only; split <;> exact .inl rfl
  | shutdown =>
    simp only
    split
    · split
      · exact .inl rfl
      · split <;> exact .inl rfl
    · exact .inl rfl
  | drained =>
    simp only
    split
    · split
      · split <;> exact .inl rfl
      · exact .inl rfl
    · exact .inl rfl
  | exit => simp only; split <;> exact .inl rfl

theorem step_socks (s : Process.St) (e : Ev) :
    (Process.step s e).dns.map Srv.sock = s.dns.map Srv.sock ∧ (Process.step s e).http.map Srv.sock = s.http.map Srv.sock := by
  refine ⟨?_, ?_⟩
  · rcases dns_change s e with h | ⟨i, x, y, h1, h2, h3⟩
    · rw [h]
    · rw [h3]; exact set_map_sock _ _ _ _ h1 h2.sock
  · rcases http_change s e with h | ⟨i, x, y, h1, h2, h3⟩
    · rw [h]
    · rw [h3]; exact set_map_sock _ _ _ _ h1 h2

theorem run_socks (s : Process.St) (es : List Ev) :
    (Process.run s es).dns.map Srv.sock = s.dns.map Srv.sock ∧ (Process.run s es).http.map Srv.sock = s.http.map Srv.sock := by
  induction es generalizing s with
  | nil => exact ⟨rfl, rfl⟩
  | cons e es ih =>
    have h := step_socks s e
    obtain ⟨h1, h2⟩ := ih (Process.step s e)
    exact ⟨h1.trans h.1, h2.trans h.2⟩

/-- **C90, start.** The server is created exactly if TLS is not configured or there is a certificate (self-signed without
files, loaded from the files otherwise), all HTTP addresses can be bound and everything else can be created. -/
theorem C90_created (o : Outside) (certFile keyFile : Str) (p : Ports) :
    (start o certFile keyFile p).isSome = true ↔
      ((p.https = [] ∧ p.tls = []) ∨ (certFile = [] ∧ keyFile = [] ∧ o.generateCert = true) ∨
        ((certFile ≠ [] ∨ keyFile ≠ []) ∧ o.loadCert certFile keyFile = true)) ∧
      (∀ a ∈ p.http, o.binds ⟨.http, a⟩ = true) ∧ (∀ a ∈ p.https, o.binds ⟨.https, a⟩ = true) ∧ o.rest = true := by
  have hall : (httpSocks p).all o.binds = true ↔ (∀ a ∈ p.http, o.binds ⟨.http, a⟩ = true) ∧ (∀ a ∈ p.https, o.binds ⟨.https, a⟩ = true) := by
    simp only [httpSocks, List.all_append, List.all_map, Bool.and_eq_true, List.all_eq_true, Function.comp]
  have hcert : ((decide (p.https ≠ []) || decide (p.tls ≠ [])) && !certificate o certFile keyFile) = false ↔
      ((p.https = [] ∧ p.tls = []) ∨ (certFile = [] ∧ keyFile = [] ∧ o.generateCert = true) ∨
        ((certFile ≠ [] ∨ keyFile ≠ []) ∧ o.loadCert certFile keyFile = true)) := by
    unfold certificate
    by_cases h1 : p.https = [] <;> by_cases h2 : p.tls = [] <;> by_cases h3 : certFile = [] <;> by_cases h4 : keyFile = [] <;>
      simp [h1, h2, h3, h4]
  unfold start
  cases hc : ((decide (p.https ≠ []) || decide (p.tls ≠ [])) && !certificate o certFile keyFile) with
  | true =>
    have : ¬ _ := fun h => Bool.noConfusion (hc.symm.trans (hcert.2 h))
    simp only [if_true, Option.isSome_none, Bool.false_eq_true, false_iff]
    exact fun h => this h.1
  | false =>
    have h1 := hcert.1 hc
    simp only [Bool.false_eq_true, if_false]
    cases ha : (httpSocks p).all o.binds with
    | false =>
      simp only [Bool.not_false, if_true, Option.isSome_none, Bool.false_eq_true, false_iff]
      intro h
      exact Bool.noConfusion (ha.symm.trans (hall.2 ⟨h.2.1, h.2.2.1⟩))
    | true =>
      obtain ⟨h2, h3⟩ := hall.1 ha
      cases hr : o.rest with
      | false => simp
      | true =>
        simp only [Bool.not_true, Bool.false_eq_true, if_false, Option.isSome_some, true_iff]
        exact ⟨h1, h2, h3, trivial⟩

/-- **C90, sockets.** During its whole life the process listens on the configured addresses only and tries all of them: UDP and TCP for the DNS
addresses, TLS for the DoT addresses, HTTP and HTTPS. -/
theorem C90_sockets (o : Outside) (certFile keyFile : Str) (p : Ports) (s : Process.St) (h : start o certFile keyFile p = some s)
    (es : List Ev) (x : Sock) : x ∈ sockets (Process.run s es) ↔ ConfiguredOn p x := by
  have hs : s = { dns := (dnsSocks p).map (fun s => ⟨s, .starting, 0⟩), http := (httpSocks p).map (fun s => ⟨s, .serving, 0⟩) } := by
    unfold start at h
    split at h
    · cases h
    · split at h
      · cases h
      · split at h
        · cases h
        · exact (Option.some.inj h).symm
  unfold sockets
  rw [List.map_append, (run_socks s es).1, (run_socks s es).2, hs]
  simp only [List.map_map]
  have e1 : (dnsSocks p).map (Srv.sock ∘ fun s => (⟨s, .starting, 0⟩ : Srv)) = dnsSocks p := List.map_id _
  have e2 : (httpSocks p).map (Srv.sock ∘ fun s => (⟨s, .serving, 0⟩ : Srv)) = httpSocks p := List.map_id _
  rw [e1, e2]
  obtain ⟨net, addr⟩ := x
  cases net <;> simp [dnsSocks, httpSocks, ConfiguredOn]

/-! ### The exit code -/

/-- The listener of a socket has failed. -/
def Failed (s0 : Process.St) (es : List Ev) (x : Sock) : Prop :=
  ∃ i, ((Ev.bindFails i ∈ es ∨ Ev.breaks i ∈ es) ∧ (s0.dns.map Srv.sock)[i]? = some x) ∨
    (Ev.httpBreaks i ∈ es ∧ (s0.http.map Srv.sock)[i]? = some x)

theorem Failed.mono {s0 : Process.St} {es : List Ev} {x : Sock} (h : Failed s0 es x) (e : Ev) : Failed s0 (es ++ [e]) x := by
  obtain ⟨i, (⟨h1, h2⟩ | ⟨h1, h2⟩)⟩ := h
  · refine ⟨i, .inl ⟨?_, h2⟩⟩
    rcases h1 with h1 | h1
    · exact .inl (List.mem_append_left _ h1)
    · exact .inr (List.mem_append_left _ h1)
  · exact ⟨i, .inr ⟨List.mem_append_left _ h1, h2⟩⟩

/-- What the state says about the past. -/
structure Past (s0 : Process.St) (es : List Ev) (s : Process.St) : Prop where
  signal : s.signal = true → Ev.sig ∈ es
  sup : s.sup ≠ .waiting → s.terminationErr = none → Ev.sig ∈ es
  errs : ∀ x ∈ s.errs, Failed s0 es x
  term : ∀ x, s.terminationErr = some x → Failed s0 es x
  exited : ∀ c, s.exited = some c → s.sup ≠ .waiting ∧ c = if s.terminationErr.isSome then 1 else 0

theorem Past.mono {s0 : Process.St} {es : List Ev} {s : Process.St} (h : Past s0 es s) (e : Ev) : Past s0 (es ++ [e]) s :=
  ⟨fun x => List.mem_append_left _ (h.signal x), fun x y => List.mem_append_left _ (h.sup x y), fun x hx => (h.errs x hx).mono e,
    fun x hx => (h.term x hx).mono e, h.exited⟩

theorem Past.step {s0 : Process.St} {es : List Ev} {s : Process.St} (h : Past s0 es s)
    (hd : s.dns.map Srv.sock = s0.dns.map Srv.sock) (hh : s.http.map Srv.sock = s0.http.map Srv.sock) (e : Ev) :
    Past s0 (es ++ [e]) (Process.step s e) := by
  have hm := h.mono e
  have hlast : e ∈ es ++ [e] := List.mem_append_right _ (List.mem_singleton_self _)
  unfold Process.step
  by_cases hx : s.exited.isSome = true
  · rw [if_pos hx]; exact hm
  have hnone : s.exited = none := by
    cases he : s.exited with
    | none => rfl
    | some c => rw [he] at hx; exact absurd rfl hx
  rw [if_neg hx]
  have hfail : ∀ x, Failed s0 (es ++ [e]) x → ∀ y ∈ s.errs ++ [x], Failed s0 (es ++ [e]) y := by
    intro x hx y hy
    rcases List.mem_append.1 hy with h | h
    · exact hm.errs y h
    · rw [List.mem_singleton.1 h]; exact hx
  have idx : ∀ (l : List Srv) (i : Nat) (x : Srv), l[i]? = some x → (l.map Srv.sock)[i]? = some x.sock := by
    intro l i x h; rw [List.getElem?_map, h]; rfl
  cases e with
  | bound i => simp only; split <;> exact ⟨hm.signal, hm.sup, hm.errs, hm.term, hm.exited⟩
  | bindFails i =>
    simp only
    split
    · next x l hxi _ =>
      refine ⟨hm.signal, hm.sup, hfail x.sock ⟨i, .inl ⟨.inl hlast, ?_⟩⟩, hm.term, hm.exited⟩
      rw [← hd]; exact idx _ _ _ hxi
    · exact hm
  | breaks i =>
    simp only
    split
    · next x l hxi _ =>
      refine ⟨hm.signal, hm.sup, hfail x.sock ⟨i, .inl ⟨.inr hlast, ?_⟩⟩, hm.term, hm.exited⟩
      rw [← hd]; exact idx _ _ _ hxi
    · exact hm
  | httpBreaks i =>
    simp only
    split
    · next x l hxi _ =>
      refine ⟨hm.signal, hm.sup, hfail x.sock ⟨i, .inr ⟨hlast, ?_⟩⟩, hm.term, hm.exited⟩
      rw [← hh]; exact idx _ _ _ hxi
    · exact hm
  | query i => simp only; split <;> exact ⟨hm.signal, hm.sup, hm.errs, hm.term, hm.exited⟩
  | answer i => simp only; split <;> exact ⟨hm.signal, hm.sup, hm.errs, hm.term, hm.exited⟩
  | httpQuery i => simp only; split <;> exact ⟨hm.signal, hm.sup, hm.errs, hm.term, hm.exited⟩
  | httpAnswer i => simp only; split <;> exact ⟨hm.signal, hm.sup, hm.errs, hm.term, hm.exited⟩
  | sig => exact ⟨fun _ => hlast, hm.sup, hm.errs, hm.term, hm.exited⟩
  | takeSignal =>
    simp only
    split
    · next hc =>
      exact ⟨(fun h => nomatch h), fun _ _ => hm.signal hc.2, hm.errs, hm.term, fun c hc => by rw [hnone] at hc; cases hc⟩
    · exact hm
  | takeError =>
    simp only
    split
    · next x rest _ he =>
      have herr := hm.errs
      rw [he] at herr
      refine ⟨hm.signal, (fun _ h => nomatch h), fun y hy => herr y (List.mem_cons_of_mem _ hy), ?_, fun c hc => by rw [hnone] at hc; cases hc⟩
      intro y hy
      cases hy
      exact herr _ List.mem_cons_self
    · exact hm
  | shutdown =>
    simp only
    cases hs : s.sup with
    | stop i =>
      have hsig : s.terminationErr = none → Ev.sig ∈ es ++ [Ev.shutdown] := hm.sup (by rw [hs]; exact (fun h => nomatch h))
      have hex : ∀ c, s.exited = some c → False := fun c hc => by rw [hnone] at hc; cases hc
      simp only
      split
      · exact ⟨hm.signal, fun _ => hsig, hm.errs, hm.term, fun c hc => (hex c hc).elim⟩
      · split
        · exact ⟨hm.signal, fun _ => hsig, hm.errs, hm.term, fun c hc => (hex c hc).elim⟩
        · exact ⟨hm.signal, fun _ => hsig, hm.errs, hm.term, fun c hc => (hex c hc).elim⟩
        · exact ⟨hm.signal, fun _ => hsig, hm.errs, hm.term, fun c hc => (hex c hc).elim⟩
    | waiting => exact hm
    | drain i => exact hm
    | finished b => exact hm
  | drained =>
    simp only
    cases hs : s.sup with
    | drain i =>
      have hsig : s.terminationErr = none → Ev.sig ∈ es ++ [Ev.drained] := hm.sup (by rw [hs]; exact (fun h => nomatch h))
      have hex : ∀ c, s.exited = some c → False := fun c hc => by rw [hnone] at hc; cases hc
      simp only
      split
      · split
        · exact ⟨hm.signal, fun _ => hsig, hm.errs, hm.term, fun c hc => (hex c hc).elim⟩
        · exact hm
      · exact hm
    | waiting => exact hm
    | stop i => exact hm
    | finished b => exact hm
  | exit =>
    simp only
    cases hs : s.sup with
    | finished b =>
      have hne : s.sup ≠ .waiting := by rw [hs]; exact (fun h => nomatch h)
      have hsig : s.terminationErr = none → Ev.sig ∈ es ++ [Ev.exit] := hm.sup hne
      refine ⟨hm.signal, fun _ => hsig, hm.errs, hm.term, ?_⟩
      intro c hc
      refine ⟨(fun h => nomatch h), ?_⟩
      cases hc
      rfl
    | waiting => exact hm
    | stop i => exact hm
    | drain i => exact hm

theorem past_run (s0 : Process.St) (h0 : Past s0 [] s0) (es : List Ev) : Past s0 es (Process.run s0 es) := by
  suffices ∀ done s, Past s0 done s → s.dns.map Srv.sock = s0.dns.map Srv.sock → s.http.map Srv.sock = s0.http.map Srv.sock →
      Past s0 (done ++ es) (Process.run s es) by simpa using this [] s0 h0 rfl rfl
  induction es with
  | nil => intro done s h _ _; simpa [Process.run] using h
  | cons e es ih =>
    intro done s h hd hh
    have := ih (done ++ [e]) (Process.step s e) (h.step hd hh e) ((step_socks s e).1.trans hd) ((step_socks s e).2.trans hh)
    simpa [Process.run] using this

/-- The state after the start, before anything happened. -/
structure Fresh (s : Process.St) : Prop where
  sup : s.sup = .waiting
  signal : s.signal = false
  errs : s.errs = []
  term : s.terminationErr = none
  exited : s.exited = none
  dns : ∀ x ∈ s.dns, x.phase = .starting ∧ x.inflight = 0

theorem start_fresh {o : Outside} {certFile keyFile : Str} {p : Ports} {s : Process.St} (h : start o certFile keyFile p = some s) : Fresh s := by
  unfold start at h
  split at h
  · cases h
  · split at h
    · cases h
    · split at h
      · cases h
      · rw [← Option.some.inj h]
        refine ⟨rfl, rfl, rfl, rfl, rfl, ?_⟩
        intro x hx
        obtain ⟨y, _, rfl⟩ := List.mem_map.1 hx
        exact ⟨rfl, rfl⟩

theorem Fresh.past {s : Process.St} (h : Fresh s) : Past s [] s :=
  ⟨(fun x => by rw [h.signal] at x; cases x), (fun x => absurd h.sup x), (fun x hx => by rw [h.errs] at hx; cases hx),
    (fun x hx => by rw [h.term] at hx; cases hx), (fun c hc => by rw [h.exited] at hc; cases hc)⟩

/-- **C90, exit code.** The process only ends with code 0 after a signal, and only with another code (1) after a listener failed. So
without signals and failures it runs for ever. -/
theorem C90_exit_code (o : Outside) (certFile keyFile : Str) (p : Ports) (s : Process.St) (h : start o certFile keyFile p = some s)
    (es : List Ev) (c : Nat) (hc : (Process.run s es).exited = some c) :
    (c = 0 ∧ Ev.sig ∈ es) ∨ (c = 1 ∧ ∃ x, (Process.run s es).terminationErr = some x ∧ Failed s es x) := by
  have hp := past_run s (start_fresh h).past es
  obtain ⟨h1, h2⟩ := hp.exited c hc
  cases ht : (Process.run s es).terminationErr with
  | none =>
    rw [ht] at h2
    exact .inl ⟨h2, hp.sup h1 ht⟩
  | some x =>
    rw [ht] at h2
    exact .inr ⟨h2, x, rfl, hp.term x ht⟩

/-! ### Queries at the end -/

/-- A listener whose loop is over, with nothing left to do. -/
def Over (x : Srv) : Prop := x.phase = .ended ∧ x.inflight = 0

structure Orderly (s : Process.St) : Prop where
  ended : ∀ x ∈ s.dns, x.phase = .ended → x.inflight = 0
  before : ∀ i, (s.sup = .stop i ∨ s.sup = .drain i) → ∀ j x, j < i → s.dns[j]? = some x → Over x
  draining : ∀ i, s.sup = .drain i → ∃ x, s.dns[i]? = some x ∧ (x.phase = .stopping ∨ x.phase = .ended)
  finished : s.sup = .finished true → ∀ x ∈ s.dns, Over x

theorem Change.over {e : Ev} {x y : Srv} (h : Change e x y) (ho : Over x) : Over y := by
  obtain ⟨h1, h2⟩ := ho
  cases h with
  | bound h => rw [h1] at h; cases h
  | bindFails h => rw [h1] at h; cases h
  | breaks h _ => exact ⟨rfl, h2⟩
  | query h => rw [h1] at h; cases h
  | answer h => omega
  | stop h => rw [h1] at h; cases h
  | drained h => exact ⟨rfl, h⟩

theorem Change.ended {e : Ev} {x y : Srv} (h : Change e x y) (ho : x.phase = .ended → x.inflight = 0) (hy : y.phase = .ended) : y.inflight = 0 := by
  cases h with
  | bound h => cases hy
  | bindFails h => cases hy
  | breaks _ h => exact h
  | query h => simp only at hy; rw [h] at hy; cases hy
  | answer h => have := ho hy; simp only at this ⊢; omega
  | stop h => cases hy
  | drained h => exact h

/-- The listeners that are over stay so. -/
theorem over_stays {s : Process.St} (e : Ev) {j : Nat} {x : Srv} (h : s.dns[j]? = some x) (ho : Over x) :
    ∀ y, (Process.step s e).dns[j]? = some y → Over y := by
  intro y hy
  rcases dns_change s e with hc | ⟨i, a, b, h1, h2, h3⟩
  · rw [hc, h] at hy; cases hy; exact ho
  · rw [h3, List.getElem?_set] at hy
    split at hy
    · next hij =>
      split at hy
      · cases hy
        rw [hij, h] at h1
        cases h1
        exact h2.over ho
      · cases hy
    · rw [h] at hy; cases hy; exact ho

theorem step_ended {s : Process.St} (h : ∀ x ∈ s.dns, x.phase = .ended → x.inflight = 0) (e : Ev) :
    ∀ x ∈ (Process.step s e).dns, x.phase = .ended → x.inflight = 0 := by
  intro x hx
  rcases dns_change s e with hc | ⟨i, a, b, h1, h2, h3⟩
  · rw [hc] at hx; exact h x hx
  · rw [h3] at hx
    rcases List.mem_or_eq_of_mem_set hx with hx | rfl
    · exact h x hx
    · exact h2.ended (h a (List.mem_of_getElem? h1))

theorem step_index {s : Process.St} (e : Ev) {j : Nat} {y : Srv} (h : (Process.step s e).dns[j]? = some y) : ∃ x, s.dns[j]? = some x := by
  rcases dns_change s e with hc | ⟨i, a, b, h1, h2, h3⟩
  · rw [hc] at h; exact ⟨y, h⟩
  · rw [h3] at h
    obtain ⟨hl, _⟩ := List.getElem?_eq_some_iff.1 h
    rw [List.length_set] at hl
    exact ⟨_, List.getElem?_eq_getElem hl⟩

/-- The supervisor is unchanged by what the listeners do. -/
theorem step_sup (s : Process.St) (e : Ev) : (Process.step s e).sup = s.sup ∨ e = .takeSignal ∨ e = .takeError ∨ e = .shutdown ∨ e = .drained := by
  unfold Process.step
  by_cases hx : s.exited.isSome = true
  · rw [if_pos hx]; exact .inl rfl
  rw [if_neg hx]
  cases e with
  | takeSignal => exact .inr (.inl rfl)
  | takeError => exact .inr (.inr (.inl rfl))
  | shutdown => exact .inr (.inr (.inr (.inl rfl)))
  | drained => exact .inr (.inr (.inr (.inr rfl)))
  | sig => exact .inl rfl
  | exit => simp only; left; split <;> rfl
  | _ => simp only; left; split <;> rfl

theorem Orderly.step {s : Process.St} (h : Orderly s) (e : Ev) : Orderly (Process.step s e) := by
  have hend := step_ended h.ended e
  -- with the same place of the supervisor everything stays true
  have same : (Process.step s e).sup = s.sup → Orderly (Process.step s e) := by
    intro hs
    refine ⟨hend, ?_, ?_, ?_⟩
    · rw [hs]
      intro i hi j y hj hy
      obtain ⟨x, hx⟩ := step_index e hy
      exact over_stays e hx (h.before i hi j x hj hx) y hy
    · rw [hs]
      intro i hi
      obtain ⟨x, hx, hp⟩ := h.draining i hi
      rcases dns_change s e with hc | ⟨i', a, b, h1, h2, h3⟩
      · rw [hc]; exact ⟨x, hx, hp⟩
      · rw [h3, List.getElem?_set]
        have hl := (List.getElem?_eq_some_iff.1 hx).1
        by_cases hij : i' = i
        · subst hij
          rw [hx] at h1
          cases h1
          rw [if_pos rfl, if_pos hl]
          refine ⟨b, rfl, ?_⟩
          cases h2 with
          | bound g => rcases hp with hp | hp <;> (rw [hp] at g; cases g)
          | bindFails g => rcases hp with hp | hp <;> (rw [hp] at g; cases g)
          | breaks g => rcases hp with hp | hp <;> (rw [hp] at g; cases g)
          | query g => rcases hp with hp | hp <;> (rw [hp] at g; cases g)
          | answer _ => exact hp
          | stop g => rcases hp with hp | hp <;> (rw [hp] at g; cases g)
          | drained _ => exact .inr rfl
        · rw [if_neg hij]; exact ⟨x, hx, hp⟩
    · rw [hs]
      intro hf y hy
      obtain ⟨j, hy⟩ := List.getElem?_of_mem hy
      obtain ⟨x, hx⟩ := step_index e hy
      exact over_stays e hx (h.finished hf x (List.mem_of_getElem? hx)) y hy
  rcases step_sup s e with hs | rfl | rfl | rfl | rfl
  · exact same hs
  · -- takeSignal
    by_cases hc : s.exited.isSome = false ∧ s.sup = .waiting ∧ s.signal = true
    · have : Process.step s .takeSignal = { s with sup := .stop 0, signal := false } := by
        simp only [Process.step, hc.1, Bool.false_eq_true, if_false, hc.2, and_self, if_true]
      rw [this]
      exact ⟨h.ended, fun i hi j x hj _ => by rcases hi with hi | hi <;> cases hi; omega, (fun i hi => nomatch hi), (fun hi => nomatch hi)⟩
    · apply same
      unfold Process.step
      by_cases hx : s.exited.isSome = true
      · rw [if_pos hx]
      · rw [if_neg hx]
        simp only
        rw [if_neg (fun h => hc ⟨by simpa using hx, h⟩)]
  · -- takeError
    have : (Process.step s .takeError).sup = s.sup ∨ ((Process.step s .takeError).dns = s.dns ∧ (Process.step s .takeError).sup = .finished false) := by
      unfold Process.step
      by_cases hx : s.exited.isSome = true
      · rw [if_pos hx]; exact .inl rfl
      · rw [if_neg hx]
        simp only
        split
        · exact .inr ⟨rfl, rfl⟩
        · exact .inl rfl
    rcases this with g | ⟨_, g⟩
    · exact same g
    · exact ⟨hend, (fun i hi => by rw [g] at hi; rcases hi with hi | hi <;> cases hi), (fun i hi => by rw [g] at hi; cases hi), (fun hi => by rw [g] at hi; cases hi)⟩
  · -- shutdown
    by_cases hx : s.exited.isSome = true
    · apply same; unfold Process.step; rw [if_pos hx]
    have hx : s.exited.isSome = false := by simpa using hx
    cases hs : s.sup with
    | stop i =>
      cases hi : s.dns[i]? with
      | none =>
        have : Process.step s .shutdown = { s with sup := .finished true } := by
          simp only [Process.step, hx, Bool.false_eq_true, if_false, hs, hi]
        rw [this]
        refine ⟨h.ended, (fun i hi => by rcases hi with hi | hi <;> cases hi), (fun i hi => nomatch hi), ?_⟩
        intro _ x hm
        obtain ⟨j, hj⟩ := List.getElem?_of_mem hm
        have hl : j < s.dns.length := (List.getElem?_eq_some_iff.1 hj).1
        have hl' := List.getElem?_eq_none_iff.1 hi
        exact h.before i (.inl hs) j x (by omega) hj
      | some x =>
        have hb := h.before i (.inl hs)
        have hl := (List.getElem?_eq_some_iff.1 hi).1
        cases hp : x.phase with
        | serving =>
          have hstep : Process.step s .shutdown = { s with dns := s.dns.set i { x with phase := .stopping }, sup := .drain i } := by
            simp only [Process.step, hx, Bool.false_eq_true, if_false, hs, hi, hp]
          rw [hstep] at hend ⊢
          refine ⟨hend, ?_, ?_, (fun hi => nomatch hi)⟩
          · intro i' hi' j y hj hy
            rcases hi' with hi' | hi' <;> cases hi'
            rw [List.getElem?_set_ne (by omega)] at hy
            exact hb j y hj hy
          · intro i' hi'
            cases hi'
            exact ⟨{ x with phase := .stopping }, by simp only [List.getElem?_set_self hl], .inl rfl⟩
        | ended =>
          have hstep : Process.step s .shutdown = { s with sup := .drain i } := by
            simp only [Process.step, hx, Bool.false_eq_true, if_false, hs, hi, hp]
          rw [hstep]
          refine ⟨h.ended, ?_, ?_, (fun hi => nomatch hi)⟩
          · intro i' hi' j y hj hy
            rcases hi' with hi' | hi' <;> cases hi'
            exact hb j y hj hy
          · intro i' hi'
            cases hi'
            exact ⟨x, hi, .inr hp⟩
        | starting | failed | stopping =>
          have hstep : Process.step s .shutdown = { s with sup := .finished false } := by
            simp only [Process.step, hx, Bool.false_eq_true, if_false, hs, hi, hp]
          rw [hstep]
          exact ⟨h.ended, (fun i hi => by rcases hi with hi | hi <;> cases hi), (fun i hi => nomatch hi), (fun hi => nomatch hi)⟩
    | waiting => apply same; simp only [Process.step, hx, Bool.false_eq_true, if_false, hs]
    | drain i => apply same; simp only [Process.step, hx, Bool.false_eq_true, if_false, hs]
    | finished b => apply same; simp only [Process.step, hx, Bool.false_eq_true, if_false, hs]
  · -- drained
    by_cases hx : s.exited.isSome = true
    · apply same; unfold Process.step; rw [if_pos hx]
    have hx : s.exited.isSome = false := by simpa using hx
    cases hs : s.sup with
    | drain i =>
      obtain ⟨x, hi, _⟩ := h.draining i hs
      have hb := h.before i (.inr hs)
      have hl := (List.getElem?_eq_some_iff.1 hi).1
      by_cases h0 : x.inflight = 0
      · have hstep : Process.step s .drained = { s with dns := s.dns.set i { x with phase := .ended }, sup := .stop (i + 1) } := by
          simp only [Process.step, hx, Bool.false_eq_true, if_false, hs, hi, h0, if_true]
        rw [hstep] at hend ⊢
        refine ⟨hend, ?_, (fun i hi => nomatch hi), (fun hi => nomatch hi)⟩
        intro i' hi' j y hj hy
        rcases hi' with hi' | hi' <;> cases hi'
        by_cases hij : j = i
        · subst hij
          simp only [List.getElem?_set_self hl] at hy
          cases hy
          exact ⟨rfl, h0⟩
        · simp only at hy
          rw [List.getElem?_set_ne (by omega)] at hy
          exact hb j y (by omega) hy
      · apply same
        simp only [Process.step, hx, Bool.false_eq_true, if_false, hs, hi, h0]
    | waiting => apply same; simp only [Process.step, hx, Bool.false_eq_true, if_false, hs]
    | stop i => apply same; simp only [Process.step, hx, Bool.false_eq_true, if_false, hs]
    | finished b => apply same; simp only [Process.step, hx, Bool.false_eq_true, if_false, hs]

theorem orderly_run {s : Process.St} (h : Orderly s) (es : List Ev) : Orderly (Process.run s es) := by
  induction es generalizing s with
  | nil => exact h
  | cons e es ih => exact ih (h.step e)

theorem Fresh.orderly {s : Process.St} (h : Fresh s) : Orderly s :=
  ⟨(fun x hx hp => by rw [(h.dns x hx).1] at hp; cases hp), (fun i hi => by rw [h.sup] at hi; rcases hi with hi | hi <;> cases hi),
    (fun i hi => by rw [h.sup] at hi; cases hi), (fun hi => by rw [h.sup] at hi; cases hi)⟩

/-- Nothing has gone wrong: all DNS listeners are up (or being stopped). -/
structure Healthy (s : Process.St) : Prop where
  dns : ∀ x ∈ s.dns, x.phase = .serving ∨ x.phase = .stopping ∨ x.phase = .ended
  errs : s.errs = []
  term : s.terminationErr = none
  sup : s.sup ≠ .finished false
  later : ∀ i j x, (s.sup = .stop i ∨ s.sup = .drain i) → i < j → s.dns[j]? = some x → x.phase ≠ .stopping
  here : ∀ i x, s.sup = .stop i → s.dns[i]? = some x → x.phase ≠ .stopping
  waiting : s.sup = .waiting → ∀ x ∈ s.dns, x.phase ≠ .stopping

/-- The listener's failure. -/
def isFailure : Ev → Bool
  | .bindFails _ => true
  | .breaks _ => true
  | .httpBreaks _ => true
  | _ => false

theorem step_phase_up {s : Process.St} {e : Ev} (h : ∀ x ∈ s.dns, x.phase = .serving ∨ x.phase = .stopping ∨ x.phase = .ended) :
    ∀ x ∈ (Process.step s e).dns, x.phase = .serving ∨ x.phase = .stopping ∨ x.phase = .ended := by
  intro y hy
  rcases dns_change s e with hc | ⟨i, a, b, h1, h2, h3⟩
  · rw [hc] at hy; exact h y hy
  · rw [h3] at hy
    rcases List.mem_or_eq_of_mem_set hy with hy | rfl
    · exact h y hy
    · have ha := h a (List.mem_of_getElem? h1)
      cases h2 with
      | bound g => exact .inl rfl
      | bindFails g => rw [g] at ha; rcases ha with ha | ha | ha <;> cases ha
      | breaks => exact .inr (.inr rfl)
      | query => exact ha
      | answer => exact ha
      | stop => exact .inr (.inl rfl)
      | drained => exact .inr (.inr rfl)

/-- A listener is only told to stop by the supervisor, in its turn. -/
theorem step_stopping {s : Process.St} {e : Ev} {j : Nat} {y : Srv} (hy : (Process.step s e).dns[j]? = some y) (hp : y.phase = .stopping) :
    (∃ x, s.dns[j]? = some x ∧ x.phase = .stopping) ∨ (e = .shutdown ∧ s.sup = .stop j ∧ (Process.step s e).sup = .drain j) := by
  by_cases hsd : e = .shutdown ∧ ∃ x, s.exited.isSome = false ∧ s.sup = .stop j ∧ s.dns[j]? = some x ∧ x.phase = .serving
  · obtain ⟨rfl, x, hx, hs, hi, hph⟩ := hsd
    right
    refine ⟨rfl, hs, ?_⟩
    simp only [Process.step, hx, Bool.false_eq_true, if_false, hs, hi, hph]
  left
  rcases dns_change s e with hc | ⟨i, a, b, h1, h2, h3⟩
  · rw [hc] at hy; exact ⟨y, hy, hp⟩
  · rw [h3, List.getElem?_set] at hy
    by_cases hij : i = j
    · subst hij
      have hl := (List.getElem?_eq_some_iff.1 h1).1
      rw [if_pos rfl, if_pos hl] at hy
      cases hy
      cases h2 with
      | bound => cases hp
      | bindFails => cases hp
      | breaks => cases hp
      | query => exact ⟨a, h1, hp⟩
      | answer => exact ⟨a, h1, hp⟩
      | drained => cases hp
      | stop g =>
        exfalso
        -- the change must be the supervisor's
        apply hsd
        refine ⟨rfl, a, ?_⟩
        by_cases hx : s.exited.isSome = true
        · exfalso
          have : (Process.step s .shutdown).dns = s.dns := by unfold Process.step; rw [if_pos hx]
          rw [this] at h3
          have h4 : s.dns[i]? = some { a with phase := .stopping } := by rw [h3, List.getElem?_set_self (by rw [← h3] at *; exact hl)]
          rw [h1] at h4
          have := congrArg Srv.phase (Option.some.inj h4)
          simp only [g] at this
          cases this
        have hx : s.exited.isSome = false := by simpa using hx
        refine ⟨hx, ?_, h1, g⟩
        have absurd_eq : (Process.step s .shutdown).dns = s.dns → False := by
          intro this
          rw [this] at h3
          have h4 : s.dns[i]? = some { a with phase := .stopping } := by rw [h3, List.getElem?_set_self (by rw [← h3] at *; exact hl)]
          rw [h1] at h4
          have := congrArg Srv.phase (Option.some.inj h4)
          simp only [g] at this
          cases this
        cases hs : s.sup with
        | stop k =>
          by_cases hk : k = i
          · rw [hk]
          · exfalso
            cases hi : s.dns[k]? with
            | none => exact absurd_eq (by simp only [Process.step, hx, Bool.false_eq_true, if_false, hs, hi])
            | some x =>
              cases hph : x.phase with
              | serving =>
                have h5 : (Process.step s .shutdown).dns = s.dns.set k { x with phase := .stopping } := by
                  simp only [Process.step, hx, Bool.false_eq_true, if_false, hs, hi, hph]
                have h6 : (Process.step s .shutdown).dns[i]? = some a := by rw [h5, List.getElem?_set_ne hk, h1]
                rw [h3, List.getElem?_set_self hl] at h6
                have := congrArg Srv.phase (Option.some.inj h6)
                simp only [g] at this
                cases this
              | ended => exact absurd_eq (by simp only [Process.step, hx, Bool.false_eq_true, if_false, hs, hi, hph])
              | starting => exact absurd_eq (by simp only [Process.step, hx, Bool.false_eq_true, if_false, hs, hi, hph])
              | failed => exact absurd_eq (by simp only [Process.step, hx, Bool.false_eq_true, if_false, hs, hi, hph])
              | stopping => exact absurd_eq (by simp only [Process.step, hx, Bool.false_eq_true, if_false, hs, hi, hph])
        | waiting => exact (absurd_eq (by simp only [Process.step, hx, Bool.false_eq_true, if_false, hs])).elim
        | drain k => exact (absurd_eq (by simp only [Process.step, hx, Bool.false_eq_true, if_false, hs])).elim
        | finished b => exact (absurd_eq (by simp only [Process.step, hx, Bool.false_eq_true, if_false, hs])).elim
    · rw [if_neg hij] at hy
      exact ⟨y, hy, hp⟩

theorem Healthy.step {s : Process.St} (h : Healthy s) (e : Ev) (he : isFailure e = false) : Healthy (Process.step s e) := by
  have hup := step_phase_up (e := e) h.dns
  -- errors do not arise
  have herr : (Process.step s e).errs = [] ∧ (Process.step s e).terminationErr = none := by
    unfold Process.step
    by_cases hx : s.exited.isSome = true
    · rw [if_pos hx]; exact ⟨h.errs, h.term⟩
    rw [if_neg hx]
    cases e with
    | bindFails i => cases he
    | breaks i => cases he
    | httpBreaks i => cases he
    | takeError =>
      simp only
      split
      · next hh => rw [h.errs] at hh; cases hh
      · exact ⟨h.errs, h.term⟩
    | sig => exact ⟨h.errs, h.term⟩
    | shutdown =>
      simp only
      split
      · split
        · exact ⟨h.errs, h.term⟩
        · split <;> exact ⟨h.errs, h.term⟩
      · exact ⟨h.errs, h.term⟩
    | drained =>
      simp only
      split
      · split
        · split <;> exact ⟨h.errs, h.term⟩
        · exact ⟨h.errs, h.term⟩
      · exact ⟨h.errs, h.term⟩
    | _ => simp only; split <;> exact ⟨h.errs, h.term⟩
  -- where the supervisor goes
  have hsup : (Process.step s e).sup = s.sup ∨ (s.sup = .waiting ∧ (Process.step s e).sup = .stop 0) ∨
      (∃ i, s.sup = .stop i ∧ (Process.step s e).sup = .drain i) ∨ (∃ i, s.sup = .drain i ∧ (Process.step s e).sup = .stop (i + 1)) ∨
      (Process.step s e).sup = .finished true := by
    rcases step_sup s e with hs | rfl | rfl | rfl | rfl
    · exact .inl hs
    · unfold Process.step
      by_cases hx : s.exited.isSome = true
      · rw [if_pos hx]; exact .inl rfl
      rw [if_neg hx]
      simp only
      split
      · next hc => exact .inr (.inl ⟨hc.1, rfl⟩)
      · exact .inl rfl
    · unfold Process.step
      by_cases hx : s.exited.isSome = true
      · rw [if_pos hx]; exact .inl rfl
      rw [if_neg hx]
      simp only
      split
      · next hh => rw [h.errs] at hh; cases hh
      · exact .inl rfl
    · unfold Process.step
      by_cases hx : s.exited.isSome = true
      · rw [if_pos hx]; exact .inl rfl
      rw [if_neg hx]
      cases hs : s.sup with
      | stop i =>
        simp only
        cases hi : s.dns[i]? with
        | none => exact .inr (.inr (.inr (.inr rfl)))
        | some x =>
          simp only
          have hx' := h.dns x (List.mem_of_getElem? hi)
          have hns := h.here i x hs hi
          cases hp : x.phase with
          | serving => exact .inr (.inr (.inl ⟨i, rfl, rfl⟩))
          | ended => exact .inr (.inr (.inl ⟨i, rfl, rfl⟩))
          | starting => rw [hp] at hx'; rcases hx' with h | h | h <;> cases h
          | failed => rw [hp] at hx'; rcases hx' with h | h | h <;> cases h
          | stopping => exact absurd hp hns
      | waiting => simp only; exact .inl hs
      | drain i => simp only; exact .inl hs
      | finished b => simp only; exact .inl hs
    · unfold Process.step
      by_cases hx : s.exited.isSome = true
      · rw [if_pos hx]; exact .inl rfl
      rw [if_neg hx]
      cases hs : s.sup with
      | drain i =>
        simp only
        split
        · split
          · exact .inr (.inr (.inr (.inl ⟨i, rfl, rfl⟩)))
          · exact .inl hs
        · exact .inl hs
      | waiting => simp only; exact .inl hs
      | stop i => simp only; exact .inl hs
      | finished b => simp only; exact .inl hs
  refine ⟨hup, herr.1, herr.2, ?_, ?_, ?_, ?_⟩
  · rcases hsup with g | ⟨_, g⟩ | ⟨i, _, g⟩ | ⟨i, _, g⟩ | g
    · rw [g]; exact h.sup
    all_goals (rw [g]; exact (fun h => nomatch h))
  · intro i j y hi hij hy hp
    rcases step_stopping hy hp with ⟨x, hx, hxp⟩ | ⟨_, hs, hd⟩
    · rcases hsup with g | ⟨g0, g⟩ | ⟨k, g0, g⟩ | ⟨k, g0, g⟩ | g
      · rw [g] at hi; exact h.later i j x hi hij hx hxp
      · exact h.waiting g0 x (List.mem_of_getElem? hx) hxp
      · rw [g] at hi
        rcases hi with hi | hi <;> cases hi
        exact h.later _ j x (.inl g0) hij hx hxp
      · rw [g] at hi
        rcases hi with hi | hi <;> cases hi
        exact h.later k j x (.inr g0) (by omega) hx hxp
      · rw [g] at hi; rcases hi with hi | hi <;> cases hi
    · rw [hd] at hi
      rcases hi with hi | hi <;> cases hi
      omega
  · intro i y hi hy hp
    rcases step_stopping hy hp with ⟨x, hx, hxp⟩ | ⟨_, hs, hd⟩
    · rcases hsup with g | ⟨g0, g⟩ | ⟨k, g0, g⟩ | ⟨k, g0, g⟩ | g
      · rw [g] at hi; exact h.here i x hi hx hxp
      · exact h.waiting g0 x (List.mem_of_getElem? hx) hxp
      · rw [g] at hi; cases hi
      · rw [g] at hi
        cases hi
        exact h.later k (k + 1) x (.inr g0) (by omega) hx hxp
      · rw [g] at hi; cases hi
    · rw [hd] at hi; cases hi
  · intro hw y hy hp
    obtain ⟨j, hy⟩ := List.getElem?_of_mem hy
    rcases step_stopping hy hp with ⟨x, hx, hxp⟩ | ⟨_, hs, hd⟩
    · rcases hsup with g | ⟨g0, g⟩ | ⟨k, g0, g⟩ | ⟨k, g0, g⟩ | g
      · rw [g] at hw; exact h.waiting hw x (List.mem_of_getElem? hx) hxp
      all_goals (rw [g] at hw; cases hw)
    · rw [hd] at hw; cases hw

theorem healthy_run {s : Process.St} (h : Healthy s) (es : List Ev) (he : ∀ e ∈ es, isFailure e = false) : Healthy (Process.run s es) := by
  induction es generalizing s with
  | nil => exact h
  | cons e es ih => exact ih (h.step e (he e List.mem_cons_self)) (fun e' h' => he e' (List.mem_cons_of_mem _ h'))

/-- An exited process has finished. -/
theorem exited_finished {s : Process.St} (h0 : ∀ c, s.exited = some c → ∃ b, s.sup = .finished b) (es : List Ev) :
    ∀ c, (Process.run s es).exited = some c → ∃ b, (Process.run s es).sup = .finished b := by
  induction es generalizing s with
  | nil => exact h0
  | cons e es ih =>
    refine ih ?_
    intro c hc
    by_cases hx : s.exited.isSome = true
    · have : Process.step s e = s := by unfold Process.step; rw [if_pos hx]
      rw [this] at hc ⊢
      exact h0 c hc
    · have hn : s.exited = none := by
        cases hs : s.exited with
        | none => rfl
        | some c => rw [hs] at hx; exact absurd rfl hx
      unfold Process.step at hc ⊢
      rw [if_neg hx] at hc ⊢
      cases e with
      | exit =>
        simp only at hc ⊢
        cases hs : s.sup with
        | finished b => exact ⟨b, rfl⟩
        | waiting => rw [hs] at hc; simp only at hc; rw [hn] at hc; cases hc
        | stop i => rw [hs] at hc; simp only at hc; rw [hn] at hc; cases hc
        | drain i => rw [hs] at hc; simp only at hc; rw [hn] at hc; cases hc
      | sig => rw [show ({ s with signal := true } : Process.St).exited = s.exited from rfl, hn] at hc; cases hc
      | shutdown =>
        exfalso
        simp only at hc
        split at hc
        · split at hc
          · simp only [hn] at hc; cases hc
          · split at hc <;> (simp only [hn] at hc; cases hc)
        · rw [hn] at hc; cases hc
      | drained =>
        exfalso
        simp only at hc
        split at hc
        · split at hc
          · split at hc
            · simp only [hn] at hc; cases hc
            · rw [hn] at hc; cases hc
          · rw [hn] at hc; cases hc
        · rw [hn] at hc; cases hc
      | _ =>
        exfalso
        simp only at hc
        split at hc
        · first
            | (simp only [hn] at hc; cases hc; done)
            | (rw [hn] at hc; cases hc)
        · rw [hn] at hc; cases hc

/-- **C90, graceful end (partial).** If all DNS listeners are up at some time and none of the listeners fails, then the process ends with
code 0, and at that time every query taken on a DNS port - UDP, TCP or TLS - has been answered. Missing: queries over
HTTPS and signals during the start, see `C90_doh_lost`, `C90_early_signal_lost`. -/
theorem C90_drained_partial (o : Outside) (certFile keyFile : Str) (p : Ports) (s : Process.St) (h : start o certFile keyFile p = some s)
    (as es : List Ev) (ha : ∀ e ∈ as, isFailure e = false) (hup : ∀ x ∈ (Process.run s as).dns, x.phase = .serving)
    (hw : (Process.run s as).sup = .waiting) (he : ∀ e ∈ es, isFailure e = false) (c : Nat)
    (hc : (Process.run s (as ++ es)).exited = some c) :
    c = 0 ∧ ∀ x ∈ (Process.run s (as ++ es)).dns, x.inflight = 0 := by
  have hrun : Process.run s (as ++ es) = Process.run (Process.run s as) es := by simp [Process.run]
  have hfresh := start_fresh h
  have hcode := C90_exit_code o certFile keyFile p s h (as ++ es) c hc
  have nofail : ∀ x, ¬ Failed s (as ++ es) x := by
    intro x hx
    have hno : ∀ e ∈ as ++ es, isFailure e = false := fun e hm => (List.mem_append.1 hm).elim (ha e) (he e)
    obtain ⟨i, (⟨(h1 | h1), _⟩ | ⟨h1, _⟩)⟩ := hx
    · exact Bool.noConfusion (hno _ h1)
    · exact Bool.noConfusion (hno _ h1)
    · exact Bool.noConfusion (hno _ h1)
  have hpast := past_run s hfresh.past as
  have nofail' : ∀ x, ¬ Failed s as x := by
    intro x hx
    obtain ⟨i, (⟨(h1 | h1), _⟩ | ⟨h1, _⟩)⟩ := hx
    · exact Bool.noConfusion (ha _ h1)
    · exact Bool.noConfusion (ha _ h1)
    · exact Bool.noConfusion (ha _ h1)
  have hhealthy : Healthy (Process.run s as) := by
    refine ⟨fun x hx => .inl (hup x hx), ?_, ?_, (by rw [hw]; exact (fun h => nomatch h)), ?_, ?_, ?_⟩
    · cases he : (Process.run s as).errs with
      | nil => rfl
      | cons x l => exact absurd (hpast.errs x (by rw [he]; exact List.mem_cons_self)) (nofail' x)
    · cases ht : (Process.run s as).terminationErr with
      | none => rfl
      | some x => exact absurd (hpast.term x ht) (nofail' x)
    · intro i j x hi; rw [hw] at hi; rcases hi with hi | hi <;> cases hi
    · intro i x hi; rw [hw] at hi; cases hi
    · intro _ x hx; rw [hup x hx]; exact (fun h => nomatch h)
  have hh := healthy_run hhealthy es he
  rw [← hrun] at hh
  have hord := orderly_run hfresh.orderly (as ++ es)
  obtain ⟨b, hb⟩ := exited_finished (s := s) (fun c hc => by rw [hfresh.exited] at hc; cases hc) (as ++ es) c hc
  cases b with
  | false => exact absurd hb hh.sup
  | true =>
    refine ⟨?_, fun x hx => (hord.finished hb x hx).2⟩
    rcases hcode with ⟨h1, _⟩ | ⟨_, x, _, hx⟩
    · exact h1
    · exact absurd hx (nofail x)

/-! ### The process does end -/

/-- Steps of the supervising goroutine and the main one still to go. -/
def stepsToExit (s : Process.St) : Nat :=
  match s.exited with
  | some _ => 0
  | none =>
    match s.sup with
    | .waiting => 2 * s.dns.length + 3
    | .stop i => 2 * (s.dns.length - i) + 2
    | .drain i => 2 * (s.dns.length - i) + 1
    | .finished _ => 1

/-- **C90, it ends.** After a signal, or the failure of a listener, there always is a next step of the supervising goroutine that brings
the process closer to its end, except while a DNS listener being shut down still has queries to answer. -/
theorem C90_ends (o : Outside) (certFile keyFile : Str) (p : Ports) (s0 : Process.St) (h : start o certFile keyFile p = some s0) (es : List Ev)
    (hreason : (Process.run s0 es).signal = true ∨ (Process.run s0 es).errs ≠ [] ∨ (Process.run s0 es).sup ≠ .waiting)
    (hn : (Process.run s0 es).exited = none) :
    (∃ e, (e = .takeSignal ∨ e = .takeError ∨ e = .shutdown ∨ e = .drained ∨ e = .exit) ∧
      stepsToExit (Process.step (Process.run s0 es) e) < stepsToExit (Process.run s0 es)) ∨
    ∃ i x, (Process.run s0 es).sup = .drain i ∧ (Process.run s0 es).dns[i]? = some x ∧ x.inflight > 0 := by
  have hord := orderly_run (start_fresh h).orderly es
  generalize Process.run s0 es = s at *
  cases hs : s.sup with
  | waiting =>
    left
    by_cases hsig : s.signal = true
    · refine ⟨.takeSignal, .inl rfl, ?_⟩
      simp only [Process.step, Option.isSome_none, Bool.false_eq_true, if_false, hs, hsig, and_self, if_true, stepsToExit, hn]
      omega
    · cases he : s.errs with
      | nil =>
        rcases hreason with h | h | h
        · exact absurd h hsig
        · exact absurd he h
        · exact absurd hs h
      | cons x l =>
        refine ⟨.takeError, .inr (.inl rfl), ?_⟩
        simp only [Process.step, Option.isSome_none, Bool.false_eq_true, if_false, hs, he, stepsToExit, hn]
        omega
  | stop i =>
    left
    refine ⟨.shutdown, .inr (.inr (.inl rfl)), ?_⟩
    simp only [Process.step, hn, Option.isSome_none, Bool.false_eq_true, if_false, hs]
    cases hi : s.dns[i]? with
    | none => simp only [stepsToExit, hn, hs]; omega
    | some x =>
      have hl := (List.getElem?_eq_some_iff.1 hi).1
      simp only
      cases hp : x.phase with
      | serving => simp only [stepsToExit, hn, hs, List.length_set]; omega
      | ended => simp only [stepsToExit, hn, hs]; omega
      | starting => simp only [stepsToExit, hn, hs]; omega
      | failed => simp only [stepsToExit, hn, hs]; omega
      | stopping => simp only [stepsToExit, hn, hs]; omega
  | drain i =>
    obtain ⟨x, hi, _⟩ := hord.draining i hs
    have hl := (List.getElem?_eq_some_iff.1 hi).1
    by_cases h0 : x.inflight = 0
    · left
      refine ⟨.drained, .inr (.inr (.inr (.inl rfl))), ?_⟩
      simp only [Process.step, Option.isSome_none, Bool.false_eq_true, if_false, hs, hi, h0, if_true, stepsToExit, hn, List.length_set]
      omega
    · exact .inr ⟨i, x, rfl, hi, by omega⟩
  | finished b =>
    left
    refine ⟨.exit, .inr (.inr (.inr (.inr rfl))), ?_⟩
    simp only [Process.step, Option.isSome_none, Bool.false_eq_true, if_false, hs, stepsToExit, hn]
    omega

/-! ### Where the end is not graceful -/

/-- All addresses can be bound, there are certificates. -/
def niceWorld : Outside := ⟨fun _ _ => true, true, fun _ => true, true⟩

/-- DNS on two ports and DNS over HTTPS. -/
def twoPorts : Ports := { dns := [str! ":53"], https := [str! ":443"] }

/-- What is left when the process has ended: exit code and unanswered queries on the DNS and on the HTTP ports. -/
def leftOver (es : List Ev) : Option (Option Nat × List Nat × List Nat) :=
  (start niceWorld [] [] twoPorts).map (fun s =>
    let s := Process.run s es
    (s.exited, s.dns.map Srv.inflight, s.http.map Srv.inflight))

/-- **C90 is false for DNS over HTTPS**: a query that is being resolved when the signal arrives gets no answer, although the
process ends in the regular way. The same query over UDP is waited for. -/
theorem C90_doh_lost :
    leftOver [.bound 0, .bound 1, .query 0, .httpQuery 0, .sig, .takeSignal, .shutdown, .drained, .answer 0, .drained, .shutdown, .drained, .shutdown, .exit] =
      some (some 0, [0, 0], [1]) := by
  decide

/-- **C90 is false during the start**: a signal that arrives while one listener is not up yet ends the process without waiting for the
queries the others are handling. -/
theorem C90_early_signal_lost :
    leftOver [.bound 1, .query 1, .sig, .takeSignal, .shutdown, .exit] = some (some 0, [0, 1], [0]) := by
  decide

-- Concrete: a failure to bind ends the process with code 1; all listeners up.
example : leftOver [.bound 0, .bindFails 1, .takeError, .exit] = some (some 1, [0, 0], [0]) ∧
    (start niceWorld [] [] twoPorts).map (fun s => (Process.run s [.bound 0, .bound 1]).dns.map Srv.phase) = some [.serving, .serving] := by
  decide

end Verif.Props
