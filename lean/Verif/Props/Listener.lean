/-
C87: what becomes of messages received on DNS ports.
-/
import Verif.Model.Listener
import Verif.Props.Server
import Verif.Props.Chain

namespace Verif.Props
open Dns Cond Server Spec Listener

variable {W : Type} {E : StringCache.RegexEngine}

/-! ### The health-check name -/

/-- How many backslashes a text ends with. -/
def tailSlashes (s : Str) : Nat := (s.reverse.takeWhile (fun c => c = '\\')).length

/-- The name of the health check or one below it, in any letter case. A dot behind an odd number of backslashes is
part of a label. -/
def HealthName (n : Str) : Prop :=
  lower n = str! "healthcheck.blocky." ∨ ∃ p, lower n = p ++ '.' :: str! "healthcheck.blocky." ∧ tailSlashes p % 2 = 0

/-- State of the scan for escapes. -/
def escOut (esc : Bool) (s : Str) : Bool := s.foldl (fun e c => c == '\\' && !e) esc

theorem mem_suffixes (s t : Str) (esc : Bool) : t ∈ suffixes esc s ↔ ∃ p, s = p ++ '.' :: t ∧ t ≠ [] ∧ escOut esc p = false := by
  induction s generalizing esc with
  | nil => simp [suffixes]
  | cons c cs ih =>
    unfold suffixes
    by_cases h : c = '.' ∧ esc = false ∧ cs ≠ []
    · rw [if_pos h]
      obtain ⟨rfl, rfl, hne⟩ := h
      rw [List.mem_cons, ih]
      constructor
      · rintro (rfl | ⟨p, rfl, h1, h2⟩)
        · exact ⟨[], rfl, hne, rfl⟩
        · exact ⟨'.' :: p, rfl, h1, h2⟩
      · rintro ⟨p, h0, h1, h2⟩
        cases p with
        | nil => injection h0 with _ h0; exact .inl h0.symm
        | cons a p =>
          injection h0 with ha h0
          subst ha
          exact .inr ⟨p, h0, h1, h2⟩
    · rw [if_neg h, ih]
      constructor
      · rintro ⟨p, rfl, h1, h2⟩
        exact ⟨c :: p, rfl, h1, h2⟩
      · rintro ⟨p, h0, h1, h2⟩
        cases p with
        | nil =>
          injection h0 with ha h0
          exact absurd ⟨ha, h2, by rw [h0]; exact h1⟩ h
        | cons a p =>
          injection h0 with ha h0
          subst ha
          exact ⟨p, h0, h1, h2⟩

theorem escOut_tail (s : Str) : escOut false s = true ↔ tailSlashes s % 2 = 1 := by
  rw [← List.reverse_reverse s]
  induction s.reverse with
  | nil => decide
  | cons c t ih =>
    have h1 : escOut false (c :: t).reverse = (c == '\\' && !escOut false t.reverse) := by
      unfold escOut
      rw [List.reverse_cons, List.foldl_append]
      rfl
    have h2 : tailSlashes (c :: t).reverse = if c = '\\' then tailSlashes t.reverse + 1 else 0 := by
      unfold tailSlashes
      rw [List.reverse_reverse, List.reverse_reverse, List.takeWhile_cons]
      by_cases hc : c = '\\'
      · simp [hc]
      · simp [hc]
    rw [h1, h2]
    by_cases hc : c = '\\'
    · rw [if_pos hc]
      cases he : escOut false t.reverse with
      | true =>
        have := ih.1 he
        simp [hc]; omega
      | false =>
        have : ¬ tailSlashes t.reverse % 2 = 1 := fun h => by rw [ih.2 h] at he; cases he
        simp [hc]; omega
    · rw [if_neg hc]
      simp [hc]

theorem isHealth_iff (q : Question) : isHealth q = true ↔ HealthName q.name ∧ q.qtype ≠ 43 := by
  unfold isHealth HealthName healthZone
  simp only [Bool.and_eq_true, bne_iff_ne, ne_eq, List.contains_iff_mem, List.mem_cons, mem_suffixes]
  constructor
  · rintro ⟨h1, h2 | ⟨p, h2, _, h3⟩⟩
    · exact ⟨.inl h2.symm, h1⟩
    · refine ⟨.inr ⟨p, h2, ?_⟩, h1⟩
      have : ¬ tailSlashes p % 2 = 1 := fun h => by rw [(escOut_tail p).2 h] at h3; cases h3
      omega
  · rintro ⟨h2 | ⟨p, h2, h3⟩, h1⟩
    · exact ⟨h1, .inl h2.symm⟩
    · refine ⟨h1, .inr ⟨p, h2, by decide, ?_⟩⟩
      cases h : escOut false p with
      | false => rfl
      | true => have := (escOut_tail p).1 h; omega

example : HealthName (str! "HealthCheck.blocky.") ∧ HealthName (str! "a.healthcheck.blocky.") ∧
    ¬ HealthName (str! "xhealthcheck.blocky.") ∧ ¬ HealthName (str! "a\\.healthcheck.blocky.") := by
  have h := fun n => isHealth_iff ⟨n, 1, 1⟩
  simp only [show (1 : Nat) ≠ 43 from by decide, ne_eq, not_false_eq_true, and_true] at h
  simp only [← h]
  decide

/-! ### Messages -/

/-- A message that is well formed as far as the listeners look: a query or notification with one question and few other
records that can be unpacked. -/
structure Proper (p : Packet) (m : Msg) (q : Question) : Prop where
  query : p.header.response = false
  opcode : p.header.opcode = 0 ∨ p.header.opcode = 4
  counts : p.qd = 1 ∧ p.an ≤ 1 ∧ p.ns ≤ 1 ∧ p.ar ≤ 2
  body : p.body = .inl m
  question : m.question = [q]

theorem accept_proper {p : Packet} {m : Msg} {q : Question} (h : Proper p m q) : accept p = .accept := by
  obtain ⟨h1, h2, ⟨h3, h4, h5, h6⟩, _, _⟩ := h
  unfold accept
  rw [h1, if_neg (by simp), if_neg (by rcases h2 with h | h <;> simp [h]), if_neg (by simp [h3]), if_neg (by omega), if_neg (by omega), if_neg (by omega)]

/-- C87: a proper query for the health-check name gets an empty reply, and nothing else happens: the resolvers are not
asked. (DS queries, which belong to the parent zone, are not answered so.) -/
theorem C87_health (env : Server.Env) (chain : MResolver W) (remote : Addr) (sni : Option Str) (p : Packet) (m : Msg) (q : Question)
    (h : Proper p m q) (hn : HealthName q.name) (ht : q.qtype ≠ 43) (w : W) :
    ∃ r, receive env chain remote sni p w = ([r], w) ∧ Replies m r ∧ r.rcode = 0 ∧ r.answer = [] ∧ r.ns = [] ∧ r.extra = [] := by
  unfold receive
  rw [accept_proper h, h.body]
  simp only [h.question, (isHealth_iff q).2 ⟨hn, ht⟩, if_true]
  exact ⟨_, rfl, replies_setRcode m rcodeSuccess, rfl, rfl, rfl, rfl⟩

/-- C87: every other proper query goes to the resolvers. -/
theorem C87_resolved (env : Server.Env) (chain : MResolver W) (remote : Addr) (sni : Option Str) (p : Packet) (m : Msg) (q : Question)
    (h : Proper p m q) (hn : ¬ HealthName q.name ∨ q.qtype = 43) (w : W) :
    receive env chain remote sni p w = onRequest env chain remote sni m w := by
  have hi : isHealth q = false := by
    cases hc : isHealth q with
    | false => rfl
    | true =>
      obtain ⟨h1, h2⟩ := (isHealth_iff q).1 hc
      rcases hn with h | h
      · exact absurd h1 h
      · exact absurd h h2
  unfold receive
  rw [accept_proper h, h.body]
  simp [h.question, hi]

/-- C87: all other messages leave the resolvers alone. Responses get no reply; the rest one, with the message's id and an
error code, that claims no authority. -/
theorem C87_rejected (env : Server.Env) (chain : MResolver W) (remote : Addr) (sni : Option Str) (p : Packet) (hp : p.Unpacked)
    (h : ¬ ∃ m q, Proper p m q) (w : W) :
    (p.header.response = true → receive env chain remote sni p w = ([], w)) ∧
    (p.header.response = false → ∃ r, receive env chain remote sni p w = ([r], w) ∧ r.id = p.header.id ∧ r.response = true ∧
      r.rcode ≠ 0 ∧ r.answer = [] ∧ r.question.length ≤ p.qd ∧ r.authoritative = false ∧
      (r.opcode = 0 ∨ r.opcode = p.header.opcode)) := by
  obtain ⟨⟨hb1, hb2, hb3, hb4⟩, hh, hcount, hpart⟩ := hp
  refine ⟨?_, ?_⟩
  · intro hr
    unfold receive accept
    rw [hr]
    rfl
  · intro hr
    unfold receive
    cases ha : accept p with
    | ignore =>
      unfold accept at ha
      rw [hr] at ha
      simp only [Bool.false_eq_true, if_false] at ha
      repeat' split at ha
      all_goals cases ha
    | rejectNotImplemented => exact ⟨_, rfl, rfl, rfl, (by decide : (4 : Nat) ≠ 0), hb2, Nat.zero_le _, rfl, .inr rfl⟩
    | reject => exact ⟨_, rfl, rfl, rfl, (by decide : rcodeFormErr ≠ 0), hb2, Nat.zero_le _, rfl, .inl rfl⟩
    | accept =>
      simp only
      cases hbody : p.body with
      | inr qs => exact ⟨_, rfl, rfl, rfl, (by decide : rcodeFormErr ≠ 0), hb2, hpart qs hbody, rfl, .inl rfl⟩
      | inl m =>
        simp only
        cases hq : m.question with
        | nil =>
          refine ⟨_, rfl, ?_, rfl, (by decide : rcodeRefused ≠ 0), rfl, ?_, rfl, .inr ?_⟩
          · rw [← hh m hbody]
            rfl
          · have h2 := (replies_setRcode m rcodeRefused).2.2
            rw [hq] at h2
            rw [h2]
            exact Nat.zero_le _
          · rw [← hh m hbody]
            rfl
        | cons q qs =>
          exfalso
          apply h
          unfold accept at ha
          rw [hr] at ha
          simp only [Bool.false_eq_true, if_false] at ha
          split at ha
          · cases ha
          · rename_i h1
            split at ha
            · cases ha
            · rename_i h2
              split at ha
              · cases ha
              · split at ha
                · cases ha
                · split at ha
                  · cases ha
                  · refine ⟨m, q, hr, ?_, ⟨by omega, by omega, by omega, by omega⟩, hbody, ?_⟩
                    · simp only [Bool.and_eq_true, decide_eq_true_eq, not_and, Decidable.not_not] at h1
                      by_cases h0 : p.header.opcode = 0
                      · exact .inl h0
                      · exact .inr (h1 h0)
                    · have := hcount m hbody
                      rw [hq] at this ⊢
                      simp only [List.length_cons] at this
                      have : qs = [] := List.length_eq_zero_iff.1 (by omega)
                      rw [this]

/-- C87: the codes of the replies to what is rejected. 4 (not implemented): the opcode is neither query nor notification. 1
(format error): the counts are wrong, or the rest cannot be read. 5 (refused): it ends after the header. -/
theorem C87_reject_codes (env : Server.Env) (chain : MResolver W) (remote : Addr) (sni : Option Str) (p : Packet) (w : W)
    (hr : p.header.response = false) :
    (p.header.opcode ≠ 0 → p.header.opcode ≠ 4 → (receive env chain remote sni p w).1.map Msg.rcode = [4]) ∧
    (p.header.opcode = 0 ∨ p.header.opcode = 4 → p.qd ≠ 1 ∨ 1 < p.an ∨ 1 < p.ns ∨ 2 < p.ar →
      (receive env chain remote sni p w).1.map Msg.rcode = [1]) ∧
    (p.header.opcode = 0 ∨ p.header.opcode = 4 → p.qd = 1 → p.an ≤ 1 → p.ns ≤ 1 → p.ar ≤ 2 →
      (∀ qs, p.body = .inr qs → (receive env chain remote sni p w).1.map Msg.rcode = [1]) ∧
      (∀ m, p.body = .inl m → m.question = [] → (receive env chain remote sni p w).1.map Msg.rcode = [5])) := by
  refine ⟨fun h0 h4 => ?_, fun h hc => ?_, fun h h1 h2 h3 h4 => ?_⟩
  · have : accept p = .rejectNotImplemented := by simp [accept, hr, h0, h4]
    simp [receive, this, notImplemented]
  · have : accept p = .reject := by
      unfold accept
      rw [hr, if_neg (by simp), if_neg (by rcases h with h | h <;> simp [h])]
      by_cases c1 : p.qd ≠ 1
      · rw [if_pos c1]
      · rw [if_neg c1]
        by_cases c2 : p.an > 1
        · rw [if_pos c2]
        · rw [if_neg c2]
          by_cases c3 : p.ns > 1
          · rw [if_pos c3]
          · rw [if_neg c3, if_pos (by omega)]
    simp [receive, this, rejection, rcodeFormErr]
  · have : accept p = .accept := by
      unfold accept
      rw [hr, if_neg (by simp), if_neg (by rcases h with h | h <;> simp [h]), if_neg (by simp [h1]), if_neg (by omega),
        if_neg (by omega), if_neg (by omega)]
    refine ⟨fun qs hb => ?_, fun m hb hq => ?_⟩
    · simp [receive, this, hb, rejection, rcodeFormErr]
    · simp [receive, this, hb, hq, Msg.setRcode, rcodeRefused]

/-- C87 for the whole server: every message on a DNS port that is not itself a response gets exactly one reply, a response
with its id. (As C60, with its conditions for proper queries.) -/
theorem C87_one_reply_partial (senv : Server.Env) {len : Msg → Nat} (ht : TruncContract len senv.trunc) (c : Chain.Config E W)
    (up : Resolver W) (hup : UpOk (ErrorReplies senv) up) (hcond : ∀ d r, c.condMapping.get d = some r → UpOk (ErrorReplies senv) r)
    (p : Packet) (hp : p.Unpacked) (hr : p.header.response = false) (hc : ∀ m q, Proper p m q → WireName q.name ∧ ConfigOk c senv q)
    (remote : Addr) (sni : Option Str) (w : Chain.World W) :
    ∃ r w', receive senv (Chain.toM (Chain.whole c up)) remote sni p w = ([r], w') ∧ r.id = p.header.id ∧ r.response = true := by
  by_cases h : ∃ m q, Proper p m q
  · obtain ⟨m, q, hm⟩ := h
    have hid : m.id = p.header.id := by rw [← hp.header m hm.body]
    by_cases hh : HealthName q.name ∧ q.qtype ≠ 43
    · obtain ⟨r, h1, ⟨h2, h3, _⟩, _⟩ := C87_health senv (Chain.toM (Chain.whole c up)) remote sni p m q hm hh.1 hh.2 w
      exact ⟨r, w, h1, h2.trans hid, h3⟩
    · rw [C87_resolved senv (Chain.toM (Chain.whole c up)) remote sni p m q hm
        (by by_cases h1 : HealthName q.name
            · exact .inr (Decidable.not_not.1 (fun h2 => hh ⟨h1, h2⟩))
            · exact .inl h1) w]
      obtain ⟨hw, hco⟩ := hc m q hm
      obtain ⟨r, w', h1, h2, h3, _⟩ := C60_reply_partial senv ht c up m q hm.question hw hco hup hcond remote sni w
      exact ⟨r, w', h1, h2.trans hid, h3⟩
  · obtain ⟨_, h2⟩ := C87_rejected senv (Chain.toM (Chain.whole c up)) remote sni p hp h w
    obtain ⟨r, h3, h4, h5, _⟩ := h2 hr
    exact ⟨r, w, h3, h4, h5⟩

/-- A packet holding a message. -/
def packet (m : Msg) : Packet :=
  { header := { m with question := [], answer := [], ns := [], extra := [] }
    qd := m.question.length, an := m.answer.length, ns := m.ns.length, ar := m.extra.length, body := .inl m }

/-- What clients get for a sequence of messages: response code and number of records. -/
def replies (up : Resolver Nat) (ms : List Msg) : List (List (Nat × Nat)) :=
  (ms.foldl (fun (acc : List (List (Nat × Nat)) × Chain.World Nat) m =>
    let x := receive sampleServer (Chain.toM (Chain.whole { sampleConfig with ecs := {} } up)) (.udp (some (.v4 1#32))) none (packet m) acc.2
    (acc.1 ++ [x.1.map (fun r => (r.rcode, r.answer.length))], x.2)) ([], sampleWorld)).1

/-- An upstream that does not take notifications, and says so in its way: there is no such name. -/
def strictUp : Resolver Nat := fun request n =>
  if request.req.opcode = 4 then (.ok { res := ({} : Msg).setRcode request.req rcodeNXDomain }, n + 1) else countingUp request n

-- a response, an update, two questions, the health check, a query
example : replies countingUp
    [{ query (str! "www.org.") with response := true }, { query (str! "www.org.") with opcode := 5 },
     { query (str! "www.org.") with question := [⟨str! "www.org.", 1, 1⟩, ⟨str! "www.org.", 1, 1⟩] },
     query (str! "healthcheck.blocky."), query (str! "www.org.")] =
    [[], [(4, 0)], [(1, 0)], [(0, 0)], [(0, 1)]] := by decide +kernel

/-- C87: notifications are not queries, but treated as such: an upstream's answer to one - here that there is no such
name - is kept in the cache and served to queries. -/
theorem C87_notify_false :
    replies strictUp [query (str! "www.org.")] = [[(0, 1)]] ∧
    replies strictUp [{ query (str! "www.org.") with opcode := 4 }, query (str! "www.org.")] = [[(3, 0)], [(3, 0)]] := by
  constructor <;> decide +kernel

end Verif.Props
