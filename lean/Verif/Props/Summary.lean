import Verif.Spec.Summary
import Verif.Props.Input

/-! # C176: the summary of the input -/
namespace Verif.Props
open Verif.Model Verif.Spec

section
variable {α : Type} [Field α] [LinearOrder α]

omit [LinearOrder α] in
theorem mem_echo (c : Settings α) (name unit : String) (f : α) (e : Echo α) :
    e ∈ echo c name f unit ↔ ∃ x, c name.toList = some (.dbl x) ∧ e = ⟨name, [x * f], unit⟩ := by
  unfold echo
  split
  · rename_i x h
    simp only [List.mem_singleton, h]
    constructor
    · intro he; exact ⟨x, rfl, he⟩
    · rintro ⟨y, hy, he⟩; cases hy; exact he
  · rename_i h
    constructor
    · intro he; cases he
    · rintro ⟨x, hx, _⟩; exact absurd hx (h x)

omit [LinearOrder α] in
theorem mem_echoList (c : Settings α) (name unit : String) (f : α) (e : Echo α) :
    e ∈ echoList c name f unit ↔ ∃ l, c name.toList = some (.dbls l) ∧ e = ⟨name, l.map (· * f), unit⟩ := by
  unfold echoList
  split
  · rename_i x h
    simp only [List.mem_singleton, h]
    constructor
    · intro he; exact ⟨x, rfl, he⟩
    · rintro ⟨y, hy, he⟩; cases hy; exact he
  · rename_i h
    constructor
    · intro he; cases he
    · rintro ⟨x, hx, _⟩; exact absurd hx (h x)

theorem faithful_echo (u : UnitTable α) (c : Settings α) (name unit : String) (f : α) (hf : f * unitInAu u unit = 1)
    (hn : name ∉ listVariables) (e : Echo α) (he : e ∈ echo c name f unit) : Faithful u c e := by
  obtain ⟨x, hx, rfl⟩ := (mem_echo c name unit f e).mp he
  unfold Faithful heldNumbers
  dsimp only
  rw [if_neg hn, hx]
  simp only [List.map_cons, List.map_nil, mul_assoc, hf, mul_one]

theorem faithful_echoList (u : UnitTable α) (c : Settings α) (name unit : String) (f : α) (hf : f * unitInAu u unit = 1)
    (hn : name ∈ listVariables) (e : Echo α) (he : e ∈ echoList c name f unit) : Faithful u c e := by
  obtain ⟨x, hx, rfl⟩ := (mem_echoList c name unit f e).mp he
  unfold Faithful heldNumbers
  dsimp only
  rw [if_pos hn, hx]
  simp only [List.map_map]
  have : ((fun x => x * unitInAu u unit) ∘ fun x => x * f) = (id : α → α) := by
    funext y; simp only [Function.comp, mul_assoc, hf, mul_one, id]
  rw [this, List.map_id]

theorem name_echo (c : Settings α) (name unit : String) (f : α) (e : Echo α) (he : e ∈ echo c name f unit) :
    e.name = name := by
  obtain ⟨x, _, rfl⟩ := (mem_echo c name unit f e).mp he
  rfl

/-- The variables whose lines are not faithful. -/
def doubtful : List String :=
  ["minTemperature", "maxTemperature", "deltaTemperature", "eFermiRange", "fermiLevel", "numOccupiedStates"]

theorem unit_ev (u : UnitTable α) (h : GoodUnits u) : u.ryToEv * unitInAu u "eV" = 1 := by
  unfold unitInAu; rw [if_pos rfl]; exact mul_one_div_cancel h.ev

theorem unit_fs (u : UnitTable α) (h : GoodUnits u) : u.auToFs * unitInAu u "fs" = 1 := by
  unfold unitInAu; rw [if_neg (by decide), if_pos rfl]; exact mul_one_div_cancel h.fs

theorem unit_ang (u : UnitTable α) (h : GoodUnits u) : u.bohrToAng * unitInAu u "ang" = 1 := by
  unfold unitInAu; rw [if_neg (by decide), if_neg (by decide), if_pos rfl]; exact mul_one_div_cancel h.ang

theorem unit_mum (u : UnitTable α) (h : GoodUnits u) : u.bohrToMum * unitInAu u "mum" = 1 := by
  unfold unitInAu; rw [if_neg (by decide), if_neg (by decide), if_neg (by decide), if_pos rfl]
  exact mul_one_div_cancel h.mum

theorem unit_temp (u : UnitTable α) (h : GoodUnits u) : u.tempAuToSi * unitInAu u "K" = 1 := by
  unfold unitInAu
  rw [if_neg (by decide), if_neg (by decide), if_neg (by decide), if_neg (by decide), if_pos rfl]
  exact mul_one_div_cancel h.temp

theorem unit_mass (u : UnitTable α) (h : GoodUnits u) : 1 / u.massAmuToRy * unitInAu u "amu" = 1 := by
  unfold unitInAu
  rw [if_neg (by decide), if_neg (by decide), if_neg (by decide), if_neg (by decide), if_neg (by decide), if_pos rfl]
  exact one_div_mul_cancel h.mass

theorem unit_one (u : UnitTable α) (unit : String)
    (h : unit ∉ ["eV", "fs", "ang", "mum", "K", "amu"]) : 1 * unitInAu u unit = 1 := by
  simp only [List.mem_cons, List.not_mem_nil, or_false, not_or] at h
  unfold unitInAu
  rw [if_neg h.1, if_neg h.2.1, if_neg h.2.2.1, if_neg h.2.2.2.1, if_neg h.2.2.2.2.1, if_neg h.2.2.2.2.2, mul_one]

theorem faithful_path (u : UnitTable α) (c : Settings α) (e : Echo α) (he : e ∈ pathSummary c) : Faithful u c e := by
  have h1 := unit_one u "1/Bohr" (by decide)
  rw [one_mul] at h1
  unfold pathSummary at he
  unfold Faithful heldNumbers
  split at he
  · rename_i x hx
    rw [List.mem_singleton.mp he]
    dsimp only
    rw [if_neg (by decide), hx]
    simp only [List.map_cons, List.map_nil, h1, mul_one]
  · rename_i hx
    rw [List.mem_singleton.mp he]
    dsimp only
    rw [if_neg (by decide)]
    split
    · rename_i x hx'; exact absurd hx' (hx x)
    · simp only [List.map_cons, List.map_nil, h1, mul_one]
      rw [if_neg (by decide), if_pos trivial]

theorem faithful_crystal (u : UnitTable α) (h : GoodUnits u) (c : Settings α) (e : Echo α) (he : e ∈ crystalSummary u c) :
    Faithful u c e := by
  unfold crystalSummary at he
  unfold Faithful heldNumbers
  split at he
  · split at he
    · cases he
    split at he
    · rename_i x hx
      rw [List.mem_singleton.mp he]
      dsimp only
      rw [if_neg (by decide), hx]
      simp only [List.map_cons, List.map_nil, mul_assoc, unit_ang u h, mul_one]
    · rename_i hx
      rw [List.mem_singleton.mp he]
      dsimp only
      rw [if_neg (by decide)]
      split
      · rename_i x hx'; exact absurd hx' (hx x)
      · simp only [List.map_cons, List.map_nil, mul_assoc, unit_ang u h, mul_one]
        rw [if_pos trivial]
  · cases he

theorem faithful_window (u : UnitTable α) (h : GoodUnits u) (c : Settings α) (e : Echo α) (he : e ∈ windowSummary u c) :
    Faithful u c e := by
  unfold windowSummary at he
  unfold Faithful heldNumbers
  split at he
  · rename_i a b hx
    split at he
    · rw [List.mem_singleton.mp he]
      dsimp only
      rw [if_pos (by decide), hx]
      simp only [List.map_cons, List.map_nil, mul_assoc, unit_ev u h, mul_one]
    · cases he
  · cases he

theorem faithful_temperatures (u : UnitTable α) (h : GoodUnits u) (c : Settings α) (e : Echo α)
    (he : e ∈ temperaturesSummary u c) : Faithful u c e := by
  unfold temperaturesSummary at he
  unfold Faithful heldNumbers
  split at he
  · rename_i l hx
    rw [List.mem_singleton.mp he]
    dsimp only
    rw [if_pos (by decide), hx]
    simp only [List.map_map]
    have : ((fun x => x * unitInAu u "K") ∘ fun x => x * u.tempAuToSi) = (id : α → α) := by
      funext y; simp only [Function.comp, mul_assoc, unit_temp u h, mul_one, id]
    rw [this, List.map_id]
  · rename_i hx
    rw [List.mem_singleton.mp he]
    dsimp only
    rw [if_pos (by decide)]
    split
    · rename_i x hx'; exact absurd hx' (hx x)
    · rfl

theorem faithful_masses (u : UnitTable α) (h : GoodUnits u) (c : Settings α) (e : Echo α)
    (he : e ∈ (match c "masses".toList with
        | some (.dbls l) => [⟨"masses", l.map (· * (1 / u.massAmuToRy)), "amu"⟩]
        | _ => [] : List (Echo α))) : Faithful u c e := by
  have : e ∈ echoList c "masses" (1 / u.massAmuToRy) "amu" := he
  exact faithful_echoList u c "masses" "amu" _ (unit_mass u h) (by decide) e this

/-- A number of the doubtful variables. -/
theorem not_doubtful {c : Settings α} {name unit : String} {f : α} {e : Echo α} (hd : e.name ∉ doubtful)
    (hn : name ∈ doubtful) (he : e ∈ echo c name f unit) {P : Prop} : P := by
  rw [name_echo c name unit f e he] at hd
  exact absurd hn hd

theorem faithful_range (u : UnitTable α) (h : GoodUnits u) (c : Settings α) (e : Echo α) (hd : e.name ∉ doubtful)
    (he : e ∈ rangeSummary u c) : Faithful u c e := by
  unfold rangeSummary at he
  simp only [List.mem_append] at he
  rcases he with ((he | he) | he) | he
  · exact faithful_temperatures u h c e he
  all_goals exact not_doubtful hd (by decide) he

theorem faithful_potential (u : UnitTable α) (h : GoodUnits u) (c : Settings α) (e : Echo α) (hd : e.name ∉ doubtful)
    (he : e ∈ potentialSummary u c) : Faithful u c e := by
  unfold potentialSummary at he
  simp only [List.mem_append] at he
  rcases he with (((((he | he) | he) | he) | he) | he) | he
  · exact faithful_echoList u c _ _ _ (unit_one u _ (by decide)) (by decide) e he
  · exact faithful_echoList u c _ _ _ (unit_ev u h) (by decide) e he
  · exact faithful_echo u c _ _ _ (unit_ev u h) (by decide) e he
  · exact faithful_echo u c _ _ _ (unit_ev u h) (by decide) e he
  · exact faithful_echo u c _ _ _ (unit_ev u h) (by decide) e he
  · exact not_doubtful hd (by decide) he
  · exact not_doubtful hd (by decide) he

theorem mem_ite_nil {β : Type} {p : Prop} [Decidable p] {l : List β} {e : β} (h : e ∈ if p then l else []) : p ∧ e ∈ l := by
  split at h
  · exact ⟨‹p›, h⟩
  · cases h

/-- Every line of the summary with a real number is faithful: the number in the unit printed beside it is the one that the
program uses.  Missing: six variables, see below. -/
theorem C176_faithful_partial (u : UnitTable α) (h : GoodUnits u) (head : Bool) (app : Str) (c : Settings α) (e : Echo α)
    (he : e ∈ inputSummary head u app c) (hd : e.name ∉ doubtful) : Faithful u c e := by
  unfold inputSummary at he
  split at he
  · cases he
  simp only [List.mem_append] at he
  rcases he with ((((he | he) | he) | he) | he) | he
  · exact faithful_crystal u h c e he
  · unfold couplingSummary at he
    have he := (mem_ite_nil he).2
    simp only [List.mem_append] at he
    rcases he with he | he
    · have he := (mem_ite_nil he).2
      simp only [List.mem_append] at he
      rcases he with ((he | he) | he) | he
      · exact faithful_echo u c _ _ _ (unit_ev u h) (by decide) e he
      · exact faithful_echo u c _ _ _ (unit_ev u h) (by decide) e he
      · exact faithful_echo u c _ _ _ (unit_ev u h) (by decide) e he
      · exact faithful_echo u c _ _ _ (unit_one u _ (by decide)) (by decide) e he
    · exact faithful_path u c e (mem_ite_nil he).2
  · unfold transportSummary at he
    have he := (mem_ite_nil he).2
    simp only [List.mem_append] at he
    rcases he with ((((((he | he) | he) | he) | he) | he) | he) | he
    · exact faithful_echo u c _ _ _ (unit_fs u h) (by decide) e he
    · exact faithful_echo u c _ _ _ (unit_ev u h) (by decide) e he
    · exact faithful_echo u c _ _ _ (unit_one u _ (by decide)) (by decide) e (mem_ite_nil he).2
    · exact faithful_window u h c e he
    · exact faithful_echo u c _ _ _ (unit_one u _ (by decide)) (by decide) e he
    · exact faithful_range u h c e hd he
    · have he := (mem_ite_nil he).2
      rcases List.mem_append.mp he with he | he
      · exact faithful_potential u h c e hd he
      · split at he <;> exact not_doubtful hd (by decide) he
    · have he := (mem_ite_nil he).2
      simp only [List.mem_append] at he
      rcases he with (he | he) | he
      · exact faithful_masses u h c e he
      · exact faithful_echoList u c _ _ _ (unit_one u _ (by decide)) (by decide) e he
      · exact faithful_echo u c _ _ _ (unit_mum u h) (by decide) e he
  · unfold dosSummary at he
    have he := (mem_ite_nil he).2
    simp only [List.mem_append] at he
    rcases he with ((he | he) | he) | he
    · exact faithful_echo u c _ _ _ (unit_ev u h) (by decide) e he
    · exact faithful_echo u c _ _ _ (unit_ev u h) (by decide) e he
    · exact faithful_echo u c _ _ _ (unit_ev u h) (by decide) e he
    · exact faithful_echo u c _ _ _ (unit_one u _ (by decide)) (by decide) e (mem_ite_nil he).2
  · unfold bandsSummary at he
    have he := (mem_ite_nil he).2
    rcases List.mem_append.mp he with he | he
    · exact faithful_path u c e he
    · exact faithful_echo u c _ _ _ (unit_one u _ (by decide)) (by decide) e (mem_ite_nil he).2
  · unfold epaSummary at he
    have he := (mem_ite_nil he).2
    simp only [List.mem_append] at he
    rcases he with ((((((((he | he) | he) | he) | he) | he) | he) | he) | he) | he
    · exact faithful_echo u c _ _ _ (unit_ev u h) (by decide) e he
    · exact faithful_echo u c _ _ _ (unit_ev u h) (by decide) e he
    · exact faithful_echo u c _ _ _ (unit_ev u h) (by decide) e he
    · exact faithful_echo u c _ _ _ (unit_ev u h) (by decide) e he
    · exact faithful_echo u c _ _ _ (unit_ev u h) (by decide) e he
    · exact faithful_echo u c _ _ _ (unit_ev u h) (by decide) e he
    · exact faithful_echo u c _ _ _ (unit_one u _ (by decide)) (by decide) e he
    · exact faithful_range u h c e hd he
    · exact faithful_potential u h c e hd he
    · exact not_doubtful hd (by decide) he

/-! ### Completeness -/

theorem echo_set {c : Settings α} {name : String} {x : α} (h : c name.toList = some (.dbl x)) (f : α) (unit : String) :
    (⟨name, [x * f], unit⟩ : Echo α) ∈ echo c name f unit := (mem_echo c name unit f _).mpr ⟨x, h, rfl⟩

/-- The lines of an application of transport or lifetimes. -/
theorem mem_transport {u : UnitTable α} {app : Str} {c : Settings α} {e : Echo α} (h : e ∈ transportSummary u app c) :
    e ∈ inputSummary true u app c := by
  unfold inputSummary
  rw [if_neg (by decide)]
  simp only [List.mem_append]
  exact Or.inl (Or.inl (Or.inl (Or.inr h)))

theorem mem_epa {u : UnitTable α} {app : Str} {c : Settings α} {e : Echo α} (h : e ∈ epaSummary u app c) :
    e ∈ inputSummary true u app c := by
  unfold inputSummary
  rw [if_neg (by decide)]
  simp only [List.mem_append]
  exact Or.inr h

theorem range_set {u : UnitTable α} {c : Settings α} {name : String} {x : α} (h : c name.toList = some (.dbl x))
    (hn : name = "minTemperature" ∨ name = "maxTemperature" ∨ name = "deltaTemperature") :
    (⟨name, [x * 1], "K"⟩ : Echo α) ∈ rangeSummary u c := by
  unfold rangeSummary
  simp only [List.mem_append]
  rcases hn with rfl | rfl | rfl
  · exact Or.inl (Or.inl (Or.inr (echo_set h _ _)))
  · exact Or.inl (Or.inr (echo_set h _ _))
  · exact Or.inr (echo_set h _ _)

theorem potential_set {u : UnitTable α} {c : Settings α} {name : String} {x : α} (h : c name.toList = some (.dbl x))
    (hn : name ∈ potentialVariables) (h' : name ≠ "numOccupiedStates") : ∃ e ∈ potentialSummary u c, e.name = name := by
  unfold potentialSummary
  simp only [List.mem_append]
  simp only [potentialVariables, List.mem_cons, List.not_mem_nil, or_false] at hn
  rcases hn with rfl | rfl | rfl | rfl | rfl | rfl
  · exact ⟨_, Or.inl (Or.inl (Or.inl (Or.inl (Or.inr (echo_set h _ _))))), rfl⟩
  · exact ⟨_, Or.inl (Or.inl (Or.inl (Or.inr (echo_set h _ _)))), rfl⟩
  · exact ⟨_, Or.inl (Or.inl (Or.inr (echo_set h _ _))), rfl⟩
  · exact ⟨_, Or.inl (Or.inr (echo_set h _ _)), rfl⟩
  · exact ⟨_, Or.inr (echo_set h _ _), rfl⟩
  · exact absurd rfl h'

/-- **C176.** Every variable of the list of the transport and lifetime applications that is set is in the summary. -/
theorem C176_transport (u : UnitTable α) (app : Str) (c : Settings α) (name : String) (x : α)
    (hset : c name.toList = some (.dbl x)) (happ : "Transport".toList <:+: app ∨ "Lifetimes".toList <:+: app)
    (hn : name ∈ transportVariables) : ∃ e ∈ inputSummary true u app c, e.name = name := by
  have ha : (appHas app "Transport" || appHas app "Lifetimes") = true := by
    rcases happ with h | h
    · simp only [appHas, (patternInString_iff _ _).mpr h, Bool.true_or]
    · simp only [appHas, (patternInString_iff _ _).mpr h, Bool.or_true]
  have key : ∃ e ∈ transportSummary u app c, e.name = name := by
    unfold transportSummary
    rw [if_pos ha]
    simp only [List.mem_append]
    simp only [transportVariables, List.mem_cons, List.not_mem_nil, or_false] at hn
    rcases hn with rfl | rfl | rfl | hn
    · exact ⟨_, Or.inl (Or.inl (Or.inl (Or.inl (Or.inl (Or.inl (Or.inl (echo_set hset _ _))))))), rfl⟩
    · exact ⟨_, Or.inl (Or.inl (Or.inl (Or.inl (Or.inl (Or.inl (Or.inr (echo_set hset _ _))))))), rfl⟩
    · exact ⟨_, Or.inl (Or.inl (Or.inl (Or.inr (echo_set hset _ _)))), rfl⟩
    · exact ⟨_, Or.inl (Or.inl (Or.inr (range_set hset hn))), rfl⟩
  obtain ⟨e, he, h⟩ := key
  exact ⟨e, mem_transport he, h⟩

/-- **C176.** Every variable of the chemical potential that is set is in the summary of the applications of transport and
lifetimes of electrons, and in that of the phonons with a file of the electron-phonon coupling. -/
theorem C176_potential (u : UnitTable α) (app : Str) (c : Settings α) (name : String) (x : α)
    (hset : c name.toList = some (.dbl x)) (happ : "Transport".toList <:+: app ∨ "Lifetimes".toList <:+: app)
    (hel : "lectron".toList <:+: app ∨
      ("honon".toList <:+: app ∧ ∃ t, t ≠ [] ∧ c "elphFileName".toList = some (.str t)))
    (hn : name ∈ potentialVariables) : ∃ e ∈ inputSummary true u app c, e.name = name := by
  have ha : (appHas app "Transport" || appHas app "Lifetimes") = true := by
    rcases happ with h | h
    · simp only [appHas, (patternInString_iff _ _).mpr h, Bool.true_or]
    · simp only [appHas, (patternInString_iff _ _).mpr h, Bool.or_true]
  have hb : (appHas app "lectron" || decide (app = "phononElectronLifetimes".toList) ||
      (appHas app "honon" && decide (textOf c "elphFileName" ≠ []))) = true := by
    rcases hel with h | ⟨h, t, ht, h2⟩
    · simp only [appHas, (patternInString_iff _ _).mpr h, Bool.true_or]
    · have : textOf c "elphFileName" ≠ [] := by unfold textOf; rw [h2]; exact ht
      simp only [appHas, (patternInString_iff _ _).mpr h, this, ne_eq, not_false_eq_true, decide_true, Bool.and_self,
        Bool.or_true]
  have key : ∃ e ∈ transportSummary u app c, e.name = name := by
    unfold transportSummary
    rw [if_pos ha, if_pos hb]
    simp only [List.mem_append]
    by_cases h' : name = "numOccupiedStates"
    · subst h'
      cases spinOrbitOf c
      · exact ⟨_, Or.inl (Or.inr (Or.inr (by rw [if_neg (by decide)]; exact echo_set hset _ _))), rfl⟩
      · exact ⟨_, Or.inl (Or.inr (Or.inr (by rw [if_pos rfl]; exact echo_set hset _ _))), rfl⟩
    · obtain ⟨e, he, h⟩ := potential_set (u := u) hset hn h'
      exact ⟨e, Or.inl (Or.inr (Or.inl he)), h⟩
  obtain ⟨e, he, h⟩ := key
  exact ⟨e, mem_transport he, h⟩

/-- **C176.** The same for the transport in the averaged approximation. -/
theorem C176_epa (u : UnitTable α) (c : Settings α) (name : String) (x : α)
    (hset : c name.toList = some (.dbl x)) (hn : name ∈ epaVariables) :
    ∃ e ∈ inputSummary true u "transportEpa".toList c, e.name = name := by
  have key : ∃ e ∈ epaSummary u "transportEpa".toList c, e.name = name := by
    unfold epaSummary
    rw [if_pos rfl]
    simp only [List.mem_append]
    rcases List.mem_append.mp hn with hn | hn
    · simp only [List.mem_cons, List.not_mem_nil, or_false] at hn
      rcases hn with rfl | rfl | rfl | rfl | rfl | rfl | rfl | hn
      · exact ⟨_, Or.inl (Or.inl (Or.inl (Or.inl (Or.inl (Or.inl (Or.inl (Or.inl (Or.inl (echo_set hset _ _))))))))), rfl⟩
      · exact ⟨_, Or.inl (Or.inl (Or.inl (Or.inl (Or.inl (Or.inl (Or.inl (Or.inl (Or.inr (echo_set hset _ _))))))))), rfl⟩
      · exact ⟨_, Or.inl (Or.inl (Or.inl (Or.inl (Or.inl (Or.inl (Or.inl (Or.inr (echo_set hset _ _)))))))), rfl⟩
      · exact ⟨_, Or.inl (Or.inl (Or.inl (Or.inl (Or.inl (Or.inl (Or.inr (echo_set hset _ _))))))), rfl⟩
      · exact ⟨_, Or.inl (Or.inl (Or.inl (Or.inl (Or.inl (Or.inr (echo_set hset _ _)))))), rfl⟩
      · exact ⟨_, Or.inl (Or.inl (Or.inl (Or.inl (Or.inr (echo_set hset _ _))))), rfl⟩
      · exact ⟨_, Or.inl (Or.inl (Or.inl (Or.inr (echo_set hset _ _)))), rfl⟩
      · exact ⟨_, Or.inl (Or.inl (Or.inr (range_set hset hn))), rfl⟩
    · by_cases h' : name = "numOccupiedStates"
      · subst h'
        exact ⟨_, Or.inr (echo_set hset _ _), rfl⟩
      · obtain ⟨e, he, h⟩ := potential_set (u := u) hset hn h'
        exact ⟨e, Or.inl (Or.inr he), h⟩
  obtain ⟨e, he, h⟩ := key
  exact ⟨e, mem_epa he, h⟩

/-- **C176.** Only the first process prints. -/
theorem C176_head (u : UnitTable α) (app : Str) (c : Settings α) : inputSummary false u app c = [] := rfl

/-! ### From the file to the terminal -/

/-- A number with the unit of the line in the file comes back. -/
theorem echo_of_file (u : UnitTable α) (stod : Str → Outcome α) (num pad : Str) (x : α) (c : Settings α)
    (name unit : String) (f : α) (hu : IsUnit u unit.toList f) (hf : f ≠ 0)
    (hn : NumberText num) (hp : NumberText pad) (hx : stod (num ++ unit.toList ++ pad) = .ok x) (y : α)
    (hy : parseDoubleWithUnits u stod (num ++ unit.toList ++ pad) = .ok y) (hc : c name.toList = some (.dbl y)) :
    (⟨name, [x], unit⟩ : Echo α) ∈ echo c name f unit := by
  rw [C68_units_partial u stod num unit.toList pad f x hu hn hp hx] at hy
  injection hy with hy
  unfold echo
  rw [hc]
  dsimp only
  rw [← hy, div_mul_cancel₀ _ hf]
  exact List.mem_singleton.mpr rfl

/-- **C176, from the text of the file to the terminal.** A smearing width given as `x eV`, a relaxation time given as
`x fs` and, for phonons, a boundary length given as `x mum` are printed as `x` with that unit.  Missing: other units,
which are converted (`C176_faithful_partial`), and other variables. -/
theorem C176_file_partial (u : UnitTable α) (h : GoodUnits u) (stod : Str → Outcome α) (num pad : Str) (x y : α)
    (app : Str) (c : Settings α) (name unit : String)
    (happ : "Transport".toList <:+: app ∨ "Lifetimes".toList <:+: app)
    (hv : (name = "smearingWidth" ∧ unit = "eV") ∨ (name = "constantRelaxationTime" ∧ unit = "fs") ∨
      (name = "boundaryLength" ∧ unit = "mum" ∧ "honon".toList <:+: app ∧ ¬ "lectron".toList <:+: app))
    (hn : NumberText num) (hp : NumberText pad) (hx : stod (num ++ unit.toList ++ pad) = .ok x)
    (hy : parseDoubleWithUnits u stod (num ++ unit.toList ++ pad) = .ok y) (hc : c name.toList = some (.dbl y)) :
    (⟨name, [x], unit⟩ : Echo α) ∈ inputSummary true u app c := by
  have ha : (appHas app "Transport" || appHas app "Lifetimes") = true := by
    rcases happ with h | h
    · simp only [appHas, (patternInString_iff _ _).mpr h, Bool.true_or]
    · simp only [appHas, (patternInString_iff _ _).mpr h, Bool.or_true]
  apply mem_transport
  unfold transportSummary
  rw [if_pos ha]
  simp only [List.mem_append]
  rcases hv with ⟨rfl, rfl⟩ | ⟨rfl, rfl⟩ | ⟨rfl, rfl, h1, h2⟩
  · exact Or.inl (Or.inl (Or.inl (Or.inl (Or.inl (Or.inl (Or.inr
      (echo_of_file u stod num pad x c _ _ _ .eV h.ev hn hp hx y hy hc)))))))
  · exact Or.inl (Or.inl (Or.inl (Or.inl (Or.inl (Or.inl (Or.inl
      (echo_of_file u stod num pad x c _ _ _ .fs h.fs hn hp hx y hy hc)))))))
  · have hb : (appHas app "honon" && !appHas app "lectron") = true := by
      simp only [appHas, (patternInString_iff _ _).mpr h1, (patternInString_false _ _).mpr h2, Bool.not_false, Bool.and_self]
    rw [if_pos hb]
    simp only [List.mem_append]
    exact Or.inr (Or.inr (echo_of_file u stod num pad x c _ _ _ .mum h.mum hn hp hx y hy hc))

end

/-! ### Violations -/

/-- The line of a variable in the summary of a file. -/
def summaryLine (file : List Str) (app name : String) : List (List ℚ × String) :=
  match setupFromInput someUnits digitReader file with
  | .ok c => ((inputSummary true someUnits app.toList c).filter (fun e => e.name = name)).map fun e => (e.numbers, e.unit)
  | _ => []

/-- Non-vacuity: a file whose numbers come back. -/
example :
    summaryLine ["smearingWidth = 10 eV".toList, "temperatures = [300]".toList] "phononTransport" "smearingWidth"
      = [([10], "eV")] ∧
    summaryLine ["smearingWidth = 10 eV".toList, "temperatures = [300]".toList] "phononTransport" "temperatures"
      = [([300], "K")] := by decide +kernel

example :
    summaryLine ["boundaryLength = 10 mum".toList, "constantRelaxationTime = 5 fs".toList] "phononTransport" "boundaryLength"
      = [([10], "mum")] ∧
    summaryLine ["boundaryLength = 10 mum".toList, "constantRelaxationTime = 5 fs".toList] "phononTransport"
      "constantRelaxationTime" = [([5], "fs")] ∧
    "Transport".toList <:+: "phononTransport".toList ∧ "honon".toList <:+: "phononTransport".toList ∧
    ¬ "lectron".toList <:+: "phononTransport".toList := by decide +kernel

example : GoodUnits someUnits := ⟨by decide, by decide, by decide, by decide, by decide, by decide⟩

/-- **C176 is violated** by the range of temperatures: the file says 300 K, the summary prints 300 / 17 (the number in
atomic units, for a table of units where 1 atomic unit is 17 K) with the unit K. -/
theorem C176_violated_temperatures :
    summaryLine ["minTemperature = 300".toList] "phononTransport" "minTemperature" = [([300 / 17], "K")] ∧
    summaryLine ["maxTemperature = 300".toList] "phononTransport" "maxTemperature" = [([300 / 17], "K")] ∧
    summaryLine ["deltaTemperature = 300".toList] "transportEpa" "deltaTemperature" = [([300 / 17], "K")] := by
  decide +kernel

/-- **C176 is violated** by the range of energies around the Fermi level: 10 eV are printed as 5 eV (in Rydberg, where 1
Ry is 2 eV). -/
theorem C176_violated_range :
    summaryLine ["eFermiRange = 10 eV".toList] "electronWannierTransport" "eFermiRange" = [([5], "eV")] := by
  decide +kernel

/-- **C176 is violated** by the Fermi level: 10 Ry are printed as 20, without a unit. -/
theorem C176_violated_fermi :
    summaryLine ["fermiLevel = 10".toList] "electronWannierTransport" "fermiLevel" = [([20], "")] := by
  decide +kernel

/-- **C176 is violated** by the number of occupied states in the averaged approximation: 4 is printed as 8, whereas the
other applications print 4; and also they print another number if the spin-orbit coupling is set after it. -/
theorem C176_violated_occupied :
    summaryLine ["numOccupiedStates = 4".toList] "transportEpa" "numOccupiedStates" = [([8], "")] ∧
    summaryLine ["numOccupiedStates = 4".toList] "electronWannierTransport" "numOccupiedStates" = [([4], "")] ∧
    summaryLine ["numOccupiedStates = 4".toList, "hasSpinOrbit = true".toList] "electronWannierTransport"
      "numOccupiedStates" = [([8], "")] := by
  decide +kernel

end Verif.Props
