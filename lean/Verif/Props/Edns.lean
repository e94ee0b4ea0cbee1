/-
C29: EDNS0 option editing.
-/
import Verif.Lemmas.Edns

namespace Verif.Props
open Dns

/-- Two messages agree in everything but their additional section. -/
def SameOutsideExtra (m m' : Msg) : Prop := { m with extra := [] } = { m' with extra := [] }

/-- **C29 (set, read back).** -/
theorem C29_set_get (m : Msg) (o : EOption) : getEdns0Option (setEdns0Option m o) o.code = some o := by
  unfold setEdns0Option
  cases h : m.edns0 with
  | none =>
    simp only [getEdns0Option, Msg.edns0]
    rw [lastOpt_snoc_opt _ _ [o] rfl]
    simp
  | some os =>
    simp only [getEdns0Option, Msg.edns0, lastOpt_update]
    have h : lastOpt m.extra = some os := h
    rw [h]
    exact find_filter_append_self os o

/-- **C29 (set leaves the other options).** -/
theorem C29_set_get_other (m : Msg) (o : EOption) (c : Nat) (hc : c ≠ o.code) :
    getEdns0Option (setEdns0Option m o) c = getEdns0Option m c := by
  unfold setEdns0Option
  cases h : m.edns0 with
  | none =>
    have h' : lastOpt m.extra = none := h
    simp only [getEdns0Option, Msg.edns0, h']
    rw [lastOpt_snoc_opt _ _ [o] rfl]
    simp [Ne.symm hc]
  | some os =>
    simp only [getEdns0Option, Msg.edns0, lastOpt_update]
    have h : lastOpt m.extra = some os := h
    rw [h]
    exact find_filter_append_ne os o hc

/-- **C29 (editing touches nothing but OPT records).** All fields and sections other than the
additional one are unchanged, and the other records of the additional section stay, in order. -/
theorem C29_only_opt_changes (m : Msg) (o : EOption) (c : Nat) :
    (SameOutsideExtra (setEdns0Option m o) m ∧
      plainRecords (setEdns0Option m o).extra = plainRecords m.extra) ∧
    (SameOutsideExtra (removeEdns0Option m c) m ∧
      plainRecords (removeEdns0Option m c).extra = plainRecords m.extra) ∧
    (SameOutsideExtra (removeEdns0Record m) m ∧
      plainRecords (removeEdns0Record m).extra = plainRecords m.extra) := by
  refine ⟨?_, ?_, rfl, plainRecords_dropFirst _⟩
  · unfold setEdns0Option
    cases m.edns0 with
    | none => exact ⟨rfl, by simp [plainRecords, RR.isOpt, freshOpt]⟩
    | some os => exact ⟨rfl, plainRecords_update _ _⟩
  · unfold removeEdns0Option
    cases m.edns0 with
    | none => exact ⟨rfl, rfl⟩
    | some os =>
      simp only
      split
      · exact ⟨rfl, by simp only [removeEdns0Record, plainRecords_dropFirst, plainRecords_update]⟩
      · exact ⟨rfl, plainRecords_update _ _⟩

/-- The fixed part of a record: name, type, class and TTL (for an OPT record: size, flags and version). -/
def fixedPart (r : RR) : Str × Nat × Nat × UInt32 := (r.name, r.rtype, r.cls, r.ttl)

theorem fixedPart_update (f : List EOption → List EOption) (rs : List RR) :
    (updateLastOpt f rs).map fixedPart = rs.map fixedPart := by
  induction rs with
  | nil => rfl
  | cons r rs ih =>
    unfold updateLastOpt
    split
    · rw [List.map_cons, ih, List.map_cons]
    · split <;> rfl

/-- **C29 (what surrounds the options).** Setting an option leaves the message size, the flags and the version of
an OPT record as they are; if there is none, one with all of these zero is added at the end, with the option
alone. -/
theorem C29_fixed_part (m : Msg) (o : EOption) :
    ((∃ r ∈ m.extra, r.isOpt = true) → (setEdns0Option m o).extra.map fixedPart = m.extra.map fixedPart) ∧
    ((∀ r ∈ m.extra, r.isOpt = false) →
      (setEdns0Option m o).extra = m.extra ++ [{ name := str! ".", rtype := 41, cls := 0, ttl := 0, data := .opt [o] }]) := by
  have hlast : ∀ rs : List RR, (lastOpt rs).isSome ↔ ∃ r ∈ rs, r.isOpt = true := by
    intro rs
    induction rs with
    | nil => simp [lastOpt]
    | cons r rs ih =>
      unfold lastOpt
      cases hl : lastOpt rs with
      | some os =>
        rw [hl] at ih
        simp only [Option.isSome_some, true_iff] at ih ⊢
        obtain ⟨x, hx, ho⟩ := ih
        exact ⟨x, List.mem_cons_of_mem _ hx, ho⟩
      | none =>
        rw [hl] at ih
        simp only [Option.isSome_none, Bool.false_eq_true, false_iff] at ih
        have ih : ∀ x ∈ rs, ¬ x.isOpt = true := fun x hx ho => ih ⟨x, hx, ho⟩
        cases hd : r.data <;> simp [RR.isOpt, hd] <;> exact fun x hx => by simpa [RR.isOpt] using ih x hx
  refine ⟨fun h => ?_, fun h => ?_⟩
  · have := (hlast m.extra).2 h
    unfold setEdns0Option Msg.edns0
    cases hl : lastOpt m.extra with
    | none => rw [hl] at this; cases this
    | some os => exact fixedPart_update _ _
  · have : lastOpt m.extra = none := by
      cases hl : lastOpt m.extra with
      | none => rfl
      | some os =>
        obtain ⟨r, hr, ho⟩ := (hlast m.extra).1 (by rw [hl]; rfl)
        rw [h r hr] at ho; cases ho
    unfold setEdns0Option Msg.edns0
    rw [this]
    rfl

/-- **C29 (remove leaves the other options).** -/
theorem C29_remove_get_other (m : Msg) (c d : Nat) (h : d ≠ c) :
    getEdns0Option (removeEdns0Option m c) d = getEdns0Option m d := by
  unfold removeEdns0Option
  cases hm : m.edns0 with
  | none => rfl
  | some os =>
    have hm' : lastOpt m.extra = some os := hm
    have hf := find_dropFirstCode_ne os h
    simp only
    split
    · next he =>
      have he : dropFirstCode c os = [] := by simpa using he
      rw [he] at hf
      have hnone : getEdns0Option m d = none := by
        simp only [getEdns0Option, hm]; exact hf.symm
      rw [hnone]
      simp only [getEdns0Option, removeEdns0Record, Msg.edns0]
      rcases Nat.lt_or_ge (optCount (updateLastOpt (dropFirstCode c) m.extra)) 2 with hc | hc
      · rw [lastOpt_dropFirst_single (by omega)]
      · rw [lastOpt_dropFirst_many hc, lastOpt_update, hm', Option.map_some, he]
        rfl
    · simp only [getEdns0Option, Msg.edns0, lastOpt_update, hm', Option.map_some]
      exact hf

/-- **C29 (remove), provable part.** An option that occurs at most once cannot be read after it has
been removed. Missing: options that occur several times, see `C29_duplicate_option_survives`. -/
theorem C29_remove_get_partial (m : Msg) (c : Nat)
    (h : ∀ os, m.edns0 = some os → (os.filter (fun o => o.code == c)).length ≤ 1) :
    getEdns0Option (removeEdns0Option m c) c = none := by
  unfold removeEdns0Option
  cases hm : m.edns0 with
  | none => simp [getEdns0Option, hm]
  | some os =>
    have hm' : lastOpt m.extra = some os := hm
    have hf := find_dropFirstCode_self os (h os hm)
    simp only
    split
    · next he =>
      have he : dropFirstCode c os = [] := by simpa using he
      simp only [getEdns0Option, removeEdns0Record, Msg.edns0]
      rcases Nat.lt_or_ge (optCount (updateLastOpt (dropFirstCode c) m.extra)) 2 with hc | hc
      · rw [lastOpt_dropFirst_single (by omega)]
      · rw [lastOpt_dropFirst_many hc, lastOpt_update, hm', Option.map_some, he]
        rfl
    · simp only [getEdns0Option, Msg.edns0, lastOpt_update, hm', Option.map_some]
      exact hf

/-- **C29 (remove the record), provable part.** A message with at most one OPT record (what
RFC 6891 allows) has no EDNS0 data afterwards. Missing: messages with several OPT records, see
`C29_second_opt_survives`. -/
theorem C29_remove_record_partial (m : Msg) (h : optCount m.extra ≤ 1) :
    (removeEdns0Record m).edns0 = none ∧ ∀ c, getEdns0Option (removeEdns0Record m) c = none := by
  have : lastOpt (dropFirstOpt m.extra) = none := lastOpt_dropFirst_single h
  exact ⟨this, fun c => by simp [getEdns0Option, Msg.edns0, removeEdns0Record, this]⟩

/-- A client-subnet option. -/
def sampleSubnet (a : BitVec 32) : EOption := .subnet 1 32 0 (some (.v4 a))

example : (setEdns0Option { extra := [{ name := str! ".", rtype := 41, cls := 1232, ttl := 0x8000, data := .opt [] }] }
    (sampleSubnet 1)).extra.map fixedPart = [(str! ".", 41, 1232, 0x8000)] :=
  (C29_fixed_part { extra := [{ name := str! ".", rtype := 41, cls := 1232, ttl := 0x8000, data := .opt [] }] } (sampleSubnet 1)).1
    ⟨_, List.mem_cons_self .., rfl⟩

/-- **C29 is false for repeated options.** If a client sends the same option twice, removing it
leaves the second copy readable. -/
theorem C29_duplicate_option_survives :
    ∃ m : Msg, getEdns0Option (removeEdns0Option m 8) 8 = some (sampleSubnet 2) :=
  ⟨{ extra := [freshOpt [sampleSubnet 1, sampleSubnet 2]] }, by decide⟩

/-- **C29 is false for repeated OPT records.** Removing "the" OPT record drops the first one, while
reading uses the last one. -/
theorem C29_second_opt_survives :
    ∃ m : Msg, getEdns0Option (removeEdns0Record m) 8 = some (sampleSubnet 2) :=
  ⟨{ extra := [freshOpt [sampleSubnet 1], freshOpt [sampleSubnet 2]] }, by decide⟩

/-! Concrete instances. -/

/-- A message with an address record, one OPT record and two options. -/
def ednsSample : Msg :=
  { extra := [freshOpt [sampleSubnet 1, .other 10 (str! "cookie") (by decide)],
      { name := str! "ns.a.", rtype := 1, ttl := 5, data := .a (.v4 1) }] }

example : optCount ednsSample.extra ≤ 1 := by decide
example : ∀ os, ednsSample.edns0 = some os → (os.filter (fun o => o.code == 8)).length ≤ 1 := by
  intro os h
  have : os = [sampleSubnet 1, .other 10 (str! "cookie") (by decide)] := by
    have : ednsSample.edns0 = some [sampleSubnet 1, .other 10 (str! "cookie") (by decide)] := rfl
    rw [this] at h; exact (Option.some.inj h).symm
  subst this
  decide
example : getEdns0Option ednsSample 8 = some (sampleSubnet 1) ∧
    getEdns0Option (removeEdns0Option ednsSample 8) 8 = none ∧
    (getEdns0Option (removeEdns0Option ednsSample 8) 10).isSome := by decide

end Verif.Props
