/-
C21: the answers given for blocked queries.
-/
import Verif.Props.Blocking

namespace Verif.Props
open Spec Dns Blocking

/-- An address that fits an A record. -/
def fitsA : IP → Bool
  | .v4 _ => true
  | .v6 _ => false

theorem isV4_fitsA : isV4 = fitsA := by funext ip; cases ip <;> rfl

/-- What the documentation promises for a block type and a question type: no records and NXDOMAIN
(`none`), or exactly these addresses. -/
def promisedAddresses : Handler → Nat → Option (List IP)
  | .nxDomain, _ => none
  | .zeroIP _, t => if t = typeA then some [.v4 0] else if t = typeAAAA then some [.v6 0] else none
  | .ips dest _, t =>
    if t = typeA then
      some (if dest.any fitsA then dest.filter fitsA else [.v4 0])
    else if t = typeAAAA then
      some (if dest.any (fun ip => !fitsA ip) then dest.filter (fun ip => !fitsA ip) else [.v6 0])
    else none

/-- The TTL of a handler. -/
def handlerTTL : Handler → UInt32
  | .zeroIP t => t
  | .ips _ t => t
  | .nxDomain => 0

/-- **C21.** The block answer is a reply to the request with exactly the promised addresses, each in
a record with the question's name and type and the block TTL; or NXDOMAIN without records. -/
theorem C21_block_answer (h : Handler) (request : Request) (q : Question) :
    h.handleBlock q (({} : Msg).setReply request.req) =
      { ({} : Msg).setReply request.req with
        rcode := if (promisedAddresses h q.qtype).isSome then rcodeSuccess else rcodeNXDomain
        answer := ((promisedAddresses h q.qtype).getD []).map (fun ip =>
          { name := q.name, rtype := q.qtype, cls := 1, ttl := handlerTTL h,
            data := if q.qtype = typeA then .a ip else .aaaa ip }) } := by
  have hrep : ∀ m : Msg, (({} : Msg).setReply m).answer = [] ∧ (({} : Msg).setReply m).rcode = 0 := by
    intro m; exact ⟨rfl, rfl⟩
  obtain ⟨h1, h2⟩ := hrep request.req
  have hne : typeAAAA ≠ typeA := by decide
  generalize ({} : Msg).setReply request.req = m at h1 h2
  obtain ⟨id, rs, op, au, tr, rd, ra, ad, cd, rc, qu, an, ns, ex⟩ := m
  simp only at h1 h2
  subst h1 h2
  have filt : ∀ (dest : List IP) (p : IP → Bool), dest.any p = false → dest.filter p = [] := by
    intro dest p hp
    rw [List.filter_eq_nil_iff]
    intro a ha hpa
    rw [List.any_eq_false] at hp
    exact hp a ha hpa
  have filt' : ∀ (dest : List IP) (p : IP → Bool), dest.any p = true → dest.filter p ≠ [] := by
    intro dest p hp hf
    rw [List.filter_eq_nil_iff] at hf
    obtain ⟨a, ha, hpa⟩ := List.any_eq_true.1 hp
    exact hf a ha hpa
  cases h with
  | nxDomain => simp [Handler.handleBlock, promisedAddresses]
  | zeroIP ttl =>
    by_cases hA : q.qtype = typeA
    · simp [Handler.handleBlock, handleZeroIP, promisedAddresses, hA, Ne.symm hne, createAnswer,
        handlerTTL, zero4, rcodeSuccess]
    · by_cases h6 : q.qtype = typeAAAA
      · simp [Handler.handleBlock, handleZeroIP, promisedAddresses, h6, hne, createAnswer,
          handlerTTL, zero6, rcodeSuccess]
      · simp [Handler.handleBlock, handleZeroIP, promisedAddresses, hA, h6]
  | ips dest ttl =>
    by_cases hA : q.qtype = typeA
    · have hd : destinationsFor dest q = dest.filter fitsA := by
        simp [destinationsFor, hA, Ne.symm hne, isV4_fitsA]
      cases hany : dest.any fitsA with
      | true =>
        have := filt' dest fitsA hany
        simp [Handler.handleBlock, promisedAddresses, hd, hA, hany, this, createAnswer, handlerTTL,
          rcodeSuccess]
      | false =>
        have := filt dest fitsA hany
        simp [Handler.handleBlock, promisedAddresses, hd, hA, hany, this, createAnswer, handlerTTL,
          rcodeSuccess, handleZeroIP, Ne.symm hne, zero4]
    · by_cases h6 : q.qtype = typeAAAA
      · have hd : destinationsFor dest q = dest.filter (fun ip => !fitsA ip) := by
          simp [destinationsFor, h6, hne, isV4_fitsA]
        cases hany : dest.any (fun ip => !fitsA ip) with
        | true =>
          have := filt' dest _ hany
          simp only [Handler.handleBlock, hd, promisedAddresses, h6, hne, if_false, if_true, hany]
          simp [this, createAnswer, handlerTTL, rcodeSuccess, h6, hne]
        | false =>
          have := filt dest _ hany
          simp only [Handler.handleBlock, hd, promisedAddresses, h6, hne, if_false, if_true, hany, this]
          simp [createAnswer, handlerTTL, rcodeSuccess, handleZeroIP, h6, hne, zero6]
      · simp [Handler.handleBlock, promisedAddresses, destinationsFor, hA, h6, handleZeroIP]

/-- **C21.** The header of a block answer: identity, opcode, RD and CD of the query (a query is opcode 0), its first
question, and none of the flags of answers from elsewhere; nothing besides the answer section. -/
theorem C21_header (h : Handler) (request : Request) (q : Question) (hop : request.req.opcode = 0) :
    let m := h.handleBlock q (({} : Msg).setReply request.req)
    m.id = request.req.id ∧ m.response = true ∧ m.opcode = 0 ∧
    m.recursionDesired = request.req.recursionDesired ∧ m.checkingDisabled = request.req.checkingDisabled ∧
    m.authoritative = false ∧ m.truncated = false ∧ m.recursionAvailable = false ∧ m.authenticatedData = false ∧
    m.question = request.req.question.take 1 ∧ m.ns = [] ∧ m.extra = [] := by
  intro m
  have e := C21_block_answer h request q
  change m = _ at e
  rw [e]
  simp only [Msg.setReply, hop]
  cases request.req.question <;> simp

/-- **C21, choice of the block type.** "NXDOMAIN" and "ZEROIP" in any case of letters; otherwise a
comma separated list of which the valid addresses are used; rejected if there is none. The TTL is
the configured duration in whole seconds. -/
theorem C21_block_type (parseIP : Str → Option IP) (c : BCfg) :
    (lower c.blockType = str! "nxdomain" → createBlockHandler parseIP c = some .nxDomain) ∧
    (lower c.blockType = str! "zeroip" →
      createBlockHandler parseIP c = some (.zeroIP (Caching.secondsU32 c.blockTTL))) ∧
    (lower c.blockType ≠ str! "nxdomain" → lower c.blockType ≠ str! "zeroip" →
      ((∃ dest, dest ≠ [] ∧ dest = (splitChar ',' c.blockType).filterMap (fun p => parseIP (trimSpace p)) ∧
        createBlockHandler parseIP c = some (.ips dest (Caching.secondsU32 c.blockTTL))) ∨
      (createBlockHandler parseIP c = none ∧
        ∀ p ∈ splitChar ',' c.blockType, parseIP (trimSpace p) = none))) := by
  have hn : lower (str! "NXDOMAIN") = str! "nxdomain" := by decide
  have hz : lower (str! "ZEROIP") = str! "zeroip" := by decide
  unfold createBlockHandler equalFold
  simp only [hn, hz, beq_iff_eq]
  refine ⟨fun h => by rw [if_pos h], fun h => ?_, fun h1 h2 => ?_⟩
  · rw [h, if_neg (by decide), if_pos rfl]
  · rw [if_neg h1, if_neg h2]
    by_cases hl : ((splitChar ',' c.blockType).filterMap (fun p => parseIP (trimSpace p))).length > 0
    · rw [if_pos hl]
      exact .inl ⟨_, by intro h; simp [h] at hl, rfl, rfl⟩
    · rw [if_neg hl]
      refine .inr ⟨rfl, fun p hp => ?_⟩
      cases hx : parseIP (trimSpace p) with
      | none => rfl
      | some ip =>
        exact absurd (List.length_pos_iff_exists_mem.2 ⟨ip, List.mem_filterMap.2 ⟨p, hp, hx⟩⟩) hl

-- Concrete: custom addresses of one family only, both question types.
example :
    let h : Handler := .ips [.v4 1, .v4 2] 60
    let q (t : Nat) : Question := { name := str! "ads.", qtype := t }
    (h.handleBlock (q 1) {}).answer.map (·.data) = [.a (.v4 1), .a (.v4 2)] ∧
    (h.handleBlock (q 28) {}).answer.map (·.data) = [.aaaa (.v6 0)] ∧
    (h.handleBlock (q 16) {}).answer = [] ∧ (h.handleBlock (q 16) {}).rcode = 3 := by
  decide

end Verif.Props
