import Verif.Spec.Setup
import Verif.Lemmas.PeerUrl
import Verif.Lemmas.AList
/-! Lemmas about the configuration. -/

namespace Dtn.Setup
open Discovery (Outcome)
open PeerUrl (isCla)
open Spec.SetupSpec

set_option linter.unusedSectionVars false
variable {A : Type} [DecidableEq A]

theorem andThen_ok {α β : Type} {x : Outcome α} {f : α → Outcome β} {b : β} (h : andThen x f = .ok b) :
    ∃ a, x = .ok a ∧ f a = .ok b := by
  cases x with
  | ok a => exact ⟨a, rfl, h⟩
  | err => cases h
  | panic => cases h

theorem unwrap_ok {α : Type} {x : Option α} {a : α} (h : unwrap x = .ok a) : x = some a := by
  cases x with
  | none => cases h
  | some b => cases h; rfl

theorem each_append {α β : Type} (f : β → α → Outcome β) (l m : List α) (b : β) :
    each f b (l ++ m) = andThen (each f b l) fun b => each f b m := by
  induction l generalizing b with
  | nil => rfl
  | cons a l ih =>
    simp only [List.cons_append, each]
    cases f b a with
    | ok c => exact ih c
    | err => rfl
    | panic => rfl

theorem each_rel {α β : Type} {f : β → α → Outcome β} (R : β → β → Prop) (hr : ∀ b, R b b)
    (ht : ∀ a b c, R a b → R b c → R a c) (hs : ∀ b a c, f b a = .ok c → R b c) {l : List α} {b c : β}
    (h : each f b l = .ok c) : R b c := by
  induction l generalizing b with
  | nil => cases h; exact hr _
  | cons a l ih =>
    obtain ⟨d, h1, h2⟩ := andThen_ok h
    exact ht _ _ _ (hs _ _ _ h1) (ih h2)

/-- All fields but one are kept. -/
theorem each_routing {l : List Text} {b c : Config} (h : each routingOption b l = .ok c) :
    c = { b with routingSettings := c.routingSettings } := by
  refine each_rel (fun b c => c = { b with routingSettings := c.routingSettings }) (fun _ => rfl) ?_ ?_ h
  · intro a b c h1 h2; rw [h2, h1]
  · intro b a c h
    unfold routingOption at h
    split at h
    · split at h
      · cases h; rfl
      · cases h
    · cases h

theorem each_clas {l : List Text} {b c : Config} (h : each claOption b l = .ok c) :
    c = { b with clas := c.clas } := by
  refine each_rel (fun b c => c = { b with clas := c.clas }) (fun _ => rfl) ?_ ?_ h
  · intro a b c h1 h2; rw [h2, h1]
  · intro b a c h
    unfold claOption at h
    split at h
    · cases h
    · split at h
      · obtain ⟨m, _, h⟩ := andThen_ok h
        cases h; rfl
      · cases h; rfl

theorem each_globals {l : List Text} {b c : Config} (h : each globalOption b l = .ok c) :
    c = { b with claGlobal := c.claGlobal } := by
  refine each_rel (fun b c => c = { b with claGlobal := c.claGlobal }) (fun _ => rfl) ?_ ?_ h
  · intro a b c h1 h2; rw [h2, h1]
  · intro b a c h
    unfold globalOption at h
    split at h
    · cases h
    · split at h
      · split at h
        · cases h
        · obtain ⟨m, _, h⟩ := andThen_ok h
          cases h; rfl
      · cases h; rfl

theorem each_services {l : List Text} {b c : Config} (h : each serviceOption b l = .ok c) :
    c = { b with services := c.services } := by
  refine each_rel (fun b c => c = { b with services := c.services }) (fun _ => rfl) ?_ ?_ h
  · intro a b c h1 h2; rw [h2, h1]
  · intro b a c h
    unfold serviceOption at h
    split at h
    · cases h
    · obtain ⟨m, _, h⟩ := andThen_ok h
      split at h
      · cases h
      · split at h
        · cases h
        · cases h; rfl

theorem each_fileServices {l : List (Text × String)} {b c : Config} (h : each fileService b l = .ok c) :
    c = { b with services := c.services } := by
  refine each_rel (fun b c => c = { b with services := c.services }) (fun _ => rfl) ?_ ?_ h
  · intro a b c h1 h2; rw [h2, h1]
  · intro b a c h
    unfold fileService at h
    obtain ⟨m, _, h⟩ := andThen_ok h
    split at h
    · cases h
    · cases h; rfl

theorem store_eq (env : Env A) (c : Announcer.Config) (a : A) : c.store env.net a = { c with dests := (c.store env.net a).dests } := by
  unfold Announcer.Config.store
  split <;> split <;> rfl

theorem addDest_eq {env : Env A} {b c : Config} {s : String} (h : addDest env b s = .ok c) : c = { b with dests := c.dests } := by
  unfold addDest at h
  split at h
  · rename_i d hd
    cases h
    unfold Announcer.Config.addDestination at hd
    split at hd
    · cases hd; rw [store_eq]
    · split at hd
      · cases hd; rw [store_eq]
      · cases hd
  · cases h

theorem each_dests {env : Env A} {l : List String} {b c : Config} (h : each (addDest env) b l = .ok c) :
    c = { b with dests := c.dests } := by
  refine each_rel (fun b c => c = { b with dests := c.dests }) (fun _ => rfl) ?_ ?_ h
  · intro a b c h1 h2; rw [h2, h1]
  · intro b a c h; exact addDest_eq h

theorem check_eq {b c : Config} (h : checkDests b = .ok c) : c = { b with dests := c.dests } := by
  unfold checkDests at h
  split at h
  · rename_i d hd
    cases h
    unfold Announcer.Config.checkDestinations at hd
    split at hd
    · split at hd <;> first | cases hd; rfl | cases hd
    · cases hd; rfl
  · cases h

theorem each_statics {env : Env A} {l : List Text} {b c : Config} (h : each (addStatic env) b l = .ok c) :
    c = { b with statics := c.statics } := by
  refine each_rel (fun b c => c = { b with statics := c.statics }) (fun _ => rfl) ?_ ?_ h
  · intro a b c h1 h2; rw [h2, h1]
  · intro b a c h
    unfold addStatic at h
    split at h
    · cases h; rfl
    · cases h

theorem statics_ok {env : Env A} {l : List Text} {b c : Config} (h : each (addStatic env) b l = .ok c) :
    ∃ ps, c.statics = b.statics ++ ps ∧ l.map (PeerUrl.parsePeerUrl env.eid env.now) = ps.map .ok := by
  induction l generalizing b with
  | nil => cases h; exact ⟨[], by simp, rfl⟩
  | cons a l ih =>
    obtain ⟨d, h1, h2⟩ := andThen_ok h
    unfold addStatic at h1
    split at h1
    · rename_i p hp
      cases h1
      obtain ⟨ps, e1, e2⟩ := ih h2
      exact ⟨p :: ps, by rw [e1]; simp, by simp [hp, e2]⟩
    · cases h1

/-- What the late options do, starting from the configuration `b`. -/
structure Late (env : Env A) (a : Args) (b c : Config) : Prop where
  host : (match a.nodeid with
    | some n => hostOf env ['/'] n
    | none => .ok b.host) = .ok c.host
  announce : argDuration env b.announce a.interval = .ok c.announce
  interval : c.interval = if a.interval.isSome then c.announce / 1000 else b.interval
  janitor : argDuration env b.janitor a.janitor = .ok c.janitor
  peerTimeout : argDuration env b.peerTimeout a.peerTimeout = .ok c.peerTimeout
  workdir : c.workdir = a.workdir.getD b.workdir
  noDiscovery : c.noDiscovery = a.disableNd
  webport : c.webport = a.webport.getD b.webport
  routing : c.routing = match a.routing with
      | some r => if r ∈ routingAlgorithms then r else b.routing
      | none => b.routing
  db : c.db = match a.db with
      | some r => if r ∈ bundleStores then r else b.db
      | none => b.db
  endpoints : c.endpoints = b.endpoints ++ a.endpoints
  v4 : c.v4 = b.v4
  v6 : c.v6 = b.v6
  statusReports : c.statusReports = b.statusReports
  ecla : c.ecla = b.ecla
  eclaPort : c.eclaPort = b.eclaPort
  parallel : c.parallel = b.parallel
  unsafeHttpd : c.unsafeHttpd = b.unsafeHttpd
  period : c.enablePeriod = b.enablePeriod
  options : ∃ x y : Config, x.routingSettings = b.routingSettings ∧ each routingOption x a.routingOptions = .ok y ∧ c.routingSettings = y.routingSettings
  clas : ∃ x y : Config, x.clas = b.clas ∧ each claOption x a.clas = .ok y ∧ c.clas = y.clas
  globals : ∃ x y : Config, x.claGlobal = b.claGlobal ∧ each globalOption x a.globals = .ok y ∧ c.claGlobal = y.claGlobal
  services : ∃ x y : Config, x.services = b.services ∧ each serviceOption x a.services = .ok y ∧ c.services = y.services
  statics : ∃ x y : Config, x.statics = b.statics ∧ each (addStatic env) x a.statics = .ok y ∧ c.statics = y.statics
  dests : ∃ x y z : Config, x.dests = b.dests ∧ x.v4 = b.v4 ∧ x.v6 = b.v6 ∧ each (addDest env) x a.dests = .ok y ∧ checkDests y = .ok z ∧
    c.dests = z.dests

theorem late_ok {env : Env A} {a : Args} {b c : Config} (h : lateOptions env a b = .ok c) : Late env a b c := by
  unfold lateOptions at h
  obtain ⟨host, hh, h⟩ := andThen_ok h
  obtain ⟨announce, ha, h⟩ := andThen_ok h
  obtain ⟨janitor, hj, h⟩ := andThen_ok h
  obtain ⟨peerTimeout, hp, h⟩ := andThen_ok h
  dsimp only at h
  obtain ⟨c1, h1, h⟩ := andThen_ok h
  obtain ⟨c2, h2, h⟩ := andThen_ok h
  obtain ⟨c3, h3, h⟩ := andThen_ok h
  obtain ⟨c4, h4, h⟩ := andThen_ok h
  obtain ⟨c5, h5, h⟩ := andThen_ok h
  obtain ⟨c6, h6, h⟩ := andThen_ok h
  obtain ⟨c7, h7, h⟩ := andThen_ok h
  cases h
  have e1 := each_routing h1
  have e2 := each_clas h2
  have e3 := each_globals h3
  have e4 := each_services h4
  have e5 := each_dests h5
  have e6 := check_eq h6
  have e7 := each_statics h7
  constructor
  case options =>
    refine ⟨_, c1, ?_, h1, by rw [e7, e6, e5, e4, e3, e2]⟩
    rfl
  case clas => exact ⟨_, c2, by rw [e1], h2, by rw [e7, e6, e5, e4, e3]⟩
  case globals => exact ⟨_, c3, by rw [e2, e1], h3, by rw [e7, e6, e5, e4]⟩
  case services => exact ⟨_, c4, by rw [e3, e2, e1], h4, by rw [e7, e6, e5]⟩
  case statics => exact ⟨_, c7, by rw [e6, e5, e4, e3, e2, e1], h7, rfl⟩
  case dests => exact ⟨_, c5, c6, by rw [e4, e3, e2, e1], by rw [e4, e3, e2, e1], by rw [e4, e3, e2, e1], h5, h6, by rw [e7]⟩
  case host => rw [e7, e6, e5, e4, e3, e2, e1]; exact hh
  case announce => rw [e7, e6, e5, e4, e3, e2, e1]; exact ha
  case janitor => rw [e7, e6, e5, e4, e3, e2, e1]; exact hj
  case peerTimeout => rw [e7, e6, e5, e4, e3, e2, e1]; exact hp
  all_goals (rw [e7, e6, e5, e4, e3, e2, e1]; try rfl)

/-- What a configuration file leads to. -/
structure Loaded (env : Env A) (f : File) (c : Config) : Prop where
  host : hostOf env [] (f.nodeid.getD env.rnd) = .ok c.host
  announce : c.announce = fileDuration env 2000000 f.interval
  interval : c.interval = c.announce / 1000
  janitor : c.janitor = fileDuration env 10000000 f.janitor
  peerTimeout : c.peerTimeout = fileDuration env 20000000 f.peerTimeout
  workdir : c.workdir = f.workdir.getD env.cwd
  webport : c.webport = toU16 (f.webport.getD 3000)
  routing : c.routing = f.routing.getD "epidemic"
  db : c.db = f.db.getD "mem"
  endpoints : c.endpoints = f.endpoints
  v4 : c.v4 = f.ipv4.getD true
  v6 : c.v6 = f.ipv6.getD false
  statusReports : c.statusReports = f.statusReports.getD false
  ecla : c.ecla = (f.ecla.getD none).getD false
  eclaPort : c.eclaPort = toU16 ((f.eclaPort.getD none).getD 0)
  parallel : c.parallel = f.parallel.getD false
  unsafeHttpd : c.unsafeHttpd = f.unsafeHttpd.getD false
  period : c.enablePeriod = f.period.getD false
  options : c.routingSettings = setTable [] f.routingSettings
  clas : c.clas = fileClas f.clas
  globals : c.claGlobal = setTable [] (fileClas f.claGlobal)
  services : ∃ x y : Config, x.services = [] ∧ each fileService x f.services = .ok y ∧ c.services = y.services
  statics : ∃ x y : Config, x.statics = [] ∧ each (addStatic env) x f.statics = .ok y ∧ c.statics = y.statics
  dests : ∃ x y : Config, x.dests = [] ∧ x.v4 = f.ipv4.getD true ∧ x.v6 = f.ipv6.getD false ∧ each (addDest env) x f.dests = .ok y ∧ checkDests y = .ok c

theorem new_ok {env : Env A} {c : Config} (h : Config.new env = .ok c) :
    env.eid (String.ofList ("dtn://".toList ++ env.rnd)) = some c.host ∧ c = { host := c.host, workdir := env.cwd } := by
  unfold Config.new at h
  obtain ⟨e, h1, h⟩ := andThen_ok h
  cases h
  exact ⟨unwrap_ok h1, rfl⟩

theorem loaded {env : Env A} {f : File} {c : Config} (h : fromFile env f = .ok c) : Loaded env f c := by
  unfold fromFile at h
  obtain ⟨b, hb, h⟩ := andThen_ok h
  obtain ⟨host, hh, h⟩ := andThen_ok h
  obtain ⟨e, rfl⟩ : ∃ e, b = { host := e, workdir := env.cwd } := ⟨_, (new_ok hb).2⟩
  obtain ⟨c1, h1, h⟩ := andThen_ok h
  obtain ⟨c2, h2, h⟩ := andThen_ok h
  obtain ⟨c3, h3, h4⟩ := andThen_ok h
  have e1 := each_statics h1
  have e2 := each_fileServices h2
  have e3 := each_dests h3
  have e4 := check_eq h4
  constructor
  case host => rw [e4, e3, e2, e1]; exact hh
  case services => exact ⟨_, c2, by rw [e1]; rfl, h2, by rw [e4, e3]⟩
  case statics => exact ⟨_, c1, rfl, h1, by rw [e4, e3, e2]; rfl⟩
  case dests => exact ⟨_, c3, by rw [e2, e1]; rfl, by rw [e2, e1]; rfl, by rw [e2, e1]; rfl, h3, h4⟩
  case ecla => rw [e4, e3, e2, e1]; simp only [fileTables, fileFields]; cases f.ecla <;> rfl
  case eclaPort => rw [e4, e3, e2, e1]; simp only [fileTables, fileFields]; cases f.eclaPort <;> rfl
  all_goals (rw [e4, e3, e2, e1]; simp [fileTables, fileFields])

end Dtn.Setup

namespace Dtn.Setup
open Discovery (Outcome)
open PeerUrl (isCla)
open Spec.SetupSpec
open Spec.PeerUrlSpec (Plain)

set_option linter.unusedSectionVars false
variable {A : Type} [DecidableEq A]

/-- A configuration is made of the early flags or the file, and the late options. -/
theorem configure_ok {env : Env A} {a : Args} {c : Config} (h : configure env a = .ok c) :
    ∃ b, Late env a b c ∧ ((a.config = none ∧ ∃ e, env.eid (String.ofList ("dtn://".toList ++ env.rnd)) = some e ∧
        b = earlyFlags a { host := e, workdir := env.cwd }) ∨
      ∃ f, a.config = some f ∧ Loaded env f b) := by
  unfold configure at h
  obtain ⟨n, hn, h⟩ := andThen_ok h
  obtain ⟨b, hb, h⟩ := andThen_ok h
  refine ⟨b, late_ok h, ?_⟩
  unfold load at hb
  split at hb
  · rename_i f hf
    exact Or.inr ⟨f, hf, loaded hb⟩
  · rename_i hf
    cases hb
    obtain ⟨h1, h2⟩ := new_ok hn
    exact Or.inl ⟨hf, _, h1, by rw [← h2]⟩

/-- What late options start from, in terms of the file (empty if there is none). -/
structure Base (env : Env A) (f : File) (b : Config) : Prop where
  announce : b.announce = fileDuration env 2000000 f.interval
  interval : b.interval = b.announce / 1000
  janitor : b.janitor = fileDuration env 10000000 f.janitor
  peerTimeout : b.peerTimeout = fileDuration env 20000000 f.peerTimeout
  workdir : b.workdir = f.workdir.getD env.cwd
  webport : b.webport = toU16 (f.webport.getD 3000)
  routing : b.routing = f.routing.getD "epidemic"
  db : b.db = f.db.getD "mem"
  endpoints : b.endpoints = f.endpoints
  options : b.routingSettings = setTable [] f.routingSettings
  clas : b.clas = fileClas f.clas
  globals : b.claGlobal = setTable [] (fileClas f.claGlobal)
  services : ∃ x y : Config, x.services = [] ∧ each fileService x f.services = .ok y ∧ b.services = y.services
  statics : ∃ x y : Config, x.statics = [] ∧ each (addStatic env) x f.statics = .ok y ∧ b.statics = y.statics

theorem base {env : Env A} {a : Args} {b : Config}
    (h : (a.config = none ∧ ∃ e, env.eid (String.ofList ("dtn://".toList ++ env.rnd)) = some e ∧
        b = earlyFlags a { host := e, workdir := env.cwd }) ∨
      ∃ f, a.config = some f ∧ Loaded env f b) : Base env (a.config.getD {}) b := by
  rcases h with ⟨h, e, _, rfl⟩ | ⟨f, h, l⟩
  · rw [h]
    exact ⟨rfl, by simp [earlyFlags], rfl, rfl, rfl, rfl, rfl, rfl, rfl, rfl, rfl, rfl, ⟨_, { host := .none, workdir := "" }, rfl, rfl, rfl⟩,
      ⟨_, { host := .none, workdir := "" }, rfl, rfl, rfl⟩⟩
  · rw [h]
    exact ⟨l.announce, l.interval, l.janitor, l.peerTimeout, l.workdir, l.webport, l.routing, l.db, l.endpoints, l.options, l.clas, l.globals,
      l.services, l.statics⟩

theorem toU16_self {p : Int} (h : 0 ≤ p ∧ p ≤ 65535) : ((toU16 p : Nat) : Int) = p := by
  unfold toU16
  omega

theorem span_arg {env : Env A} {old : Nat} {t : String} {d : Nat} (h : argDuration env old (some t) = .ok d) : Span env t d := by
  unfold argDuration at h
  unfold Span
  dsimp only at h
  split
  · rename_i ht
    rw [if_pos ht] at h
    cases h; rfl
  · rename_i ht
    rw [if_neg ht] at h
    exact unwrap_ok h

/-- Command line, file, default: one time span. -/
theorem span_follows {env : Env A} {x y : Option String} {dflt b c : Nat} (hb : b = fileDuration env dflt y)
    (hc : argDuration env b x = .ok c) (hp : ∀ t, y = some t → ∃ d, Span env t d ∧ env.duration t = some d) :
    (∀ t, first [x.map some, y.map some] none = some t → Span env t c) ∧ (x = none → y = none → c = dflt) := by
  cases x with
  | some t =>
    refine ⟨?_, by simp⟩
    intro u hu
    simp only [first, Option.map_some, Option.some.injEq] at hu
    subst hu
    exact span_arg hc
  | none =>
    have hc : b = c := by cases hc; rfl
    subst hc
    cases y with
    | none => exact ⟨by simp [first], fun _ _ => hb⟩
    | some t =>
      refine ⟨?_, by simp⟩
      intro u hu
      simp only [first, Option.map_some, Option.map_none, Option.some.injEq] at hu
      subst hu
      obtain ⟨d, h1, h2⟩ := hp t rfl
      rw [hb]
      unfold fileDuration
      dsimp only
      rw [h2]
      exact h1

theorem digit_iff (c : Char) : PeerUrl.isDigit c = true ↔ Digit c := by
  simp [PeerUrl.isDigit, Digit]

theorem alpha_iff (c : Char) : PeerUrl.isAlpha c = true ↔ Letter c := by
  simp [PeerUrl.isAlpha, Letter]

theorem alnum_iff (c : Char) : isAlnum c = true ↔ Letter c ∨ Digit c := by
  simp only [isAlnum, Bool.or_eq_true, alpha_iff, digit_iff]

theorem letter_ascii {c : Char} (h : Letter c) : c.toNat < 128 := by
  rcases h with h | h
  · exact Nat.lt_of_le_of_lt h.2 (by decide : 'z'.toNat < 128)
  · exact Nat.lt_of_le_of_lt h.2 (by decide : 'Z'.toNat < 128)

theorem letter_not_digit {c : Char} (h : Letter c) : ¬ Digit c := by
  intro hd
  have h9 : c.toNat ≤ '9'.toNat := hd.2
  rcases h with h | h
  · have : 'a'.toNat ≤ c.toNat := h.1
    have e : 'a'.toNat = 97 := rfl
    have e2 : '9'.toNat = 57 := rfl
    omega
  · have : 'A'.toNat ≤ c.toNat := h.1
    have e : 'A'.toNat = 65 := rfl
    have e2 : '9'.toNat = 57 := rfl
    omega

theorem digits_value (s : Text) (h : ∀ c ∈ s, Digit c) (acc : Nat) :
    Routing.StaticRouting.digits acc s = some (s.foldl (fun v c => v * 10 + (c.toNat - '0'.toNat)) acc) := by
  induction s generalizing acc with
  | nil => rfl
  | cons c s ih =>
    have hc := h c (by simp)
    simp only [Routing.StaticRouting.digits, List.foldl_cons]
    rw [if_pos (show '0' ≤ c ∧ c ≤ '9' from hc)]
    exact ih (fun d hd => h d (by simp [hd])) _

theorem digits_letter {c : Char} {s : Text} (h : ¬ Digit c) (acc : Nat) : Routing.StaticRouting.digits acc (c :: s) = none := by
  simp only [Routing.StaticRouting.digits]
  rw [if_neg (show ¬ ('0' ≤ c ∧ c ≤ '9') from h)]

theorem valid_number {env : Env A} {s : Text} (h : Number s) : isValidNodeName env s = some true := by
  obtain ⟨h1, h2⟩ := h
  cases s with
  | nil => exact absurd rfl h1
  | cons c s =>
    have : (c :: s).all PeerUrl.isDigit = true := by
      rw [List.all_eq_true]
      intro d hd
      exact (digit_iff d).2 (h2 d hd)
    unfold isValidNodeName
    dsimp only
    rw [this, Bool.or_true]

theorem valid_name {env : Env A} (he : Sound env) {s : Text} (h : NodeName s) : isValidNodeName env s = some true := by
  obtain ⟨⟨c, h1, h2⟩, h3, ⟨d, h4, h5⟩⟩ := h
  cases s with
  | nil => cases h1
  | cons x s =>
    have hx : x = c := by simpa using h1
    subst hx
    have ha : env.alphabetic x = true := (he.ascii x (letter_ascii h2)).2 h2
    have hb : s.all (fun c => isAlnum c || c = '_' || c = '-' || c = '.') = true := by
      rw [List.all_eq_true]
      intro y hy
      have := h3 y (by simp [hy])
      simp only [Bool.or_eq_true, alnum_iff, decide_eq_true_eq]
      rcases this with h | h | h | h | h
      · exact Or.inl (Or.inl (Or.inl (Or.inl h)))
      · exact Or.inl (Or.inl (Or.inl (Or.inr h)))
      · exact Or.inr h
      · exact Or.inl (Or.inr h)
      · exact Or.inl (Or.inl (Or.inr h))
    have hc : (((x :: s).getLast?.map isAlnum).getD false) = true := by
      rw [h4]
      exact (alnum_iff d).2 h5
    unfold isValidNodeName
    dsimp only
    rw [ha, hb, hc]
    rfl

theorem name_of_valid {env : Env A} (he : Sound env) {s : Text} (ha : ∀ c ∈ s, c.toNat < 128) (h : isValidNodeName env s = some true) :
    Number s ∨ NodeName s := by
  cases s with
  | nil => cases h
  | cons x s =>
    simp only [isValidNodeName, Option.some.injEq, Bool.or_eq_true, Bool.and_eq_true] at h
    rcases h with ⟨⟨h1, h2⟩, h3⟩ | h
    · have hx := (he.ascii x (ha x (by simp))).1 h1
      right
      refine ⟨⟨x, rfl, hx⟩, ?_, ?_⟩
      · intro c hc
        rcases List.mem_cons.mp hc with rfl | hc
        · exact Or.inl hx
        · have := List.all_eq_true.mp h2 c hc
          simp only [Bool.or_eq_true, alnum_iff, decide_eq_true_eq] at this
          rcases this with ((this | this) | this) | this
          · rcases this with h | h
            · exact Or.inl h
            · exact Or.inr (Or.inl h)
          · exact Or.inr (Or.inr (Or.inr (Or.inr this)))
          · exact Or.inr (Or.inr (Or.inr (Or.inl this)))
          · exact Or.inr (Or.inr (Or.inl this))
      · cases hl : (x :: s).getLast? with
        | none => rw [hl] at h3; cases h3
        | some d =>
          rw [hl] at h3
          exact ⟨d, rfl, (alnum_iff d).1 h3⟩
    · left
      refine ⟨by simp, fun c hc => (digit_iff c).1 (List.all_eq_true.mp h c hc)⟩

theorem plain_name {s : Text} (h : NodeName s) : s ≠ [] ∧ Plain s := by
  obtain ⟨⟨c, h1, h2⟩, h3, _⟩ := h
  refine ⟨fun h => by (subst h; cases h1), ?_⟩
  intro x hx
  rcases h3 x hx with (h | h) | h | h | h | h
  · exact Or.inl h
  · exact Or.inr (Or.inl h)
  · exact Or.inr (Or.inr (Or.inl h))
  · exact Or.inr (Or.inr (Or.inr (Or.inr (Or.inl h))))
  · exact Or.inr (Or.inr (Or.inr (Or.inl h)))
  · exact Or.inr (Or.inr (Or.inr (Or.inr (Or.inr (Or.inl h)))))

theorem plain_number {s : Text} (h : Number s) : Plain s := fun x hx => Or.inr (Or.inr (Or.inl (h.2 x hx)))

theorem isNodeId_iff (e : EID) : isNodeId e = true ↔ IsNode e := by
  cases e with
  | none => simp [isNodeId, IsNode]
  | dtn n s => simp [isNodeId, IsNode]
  | ipn n s => simp [isNodeId, IsNode]

/-- The parser reads names with the given end. -/
def Reads (env : Env A) (slash : Text) : Prop := ∀ n : Text, n ≠ [] → Plain n →
  env.eid (String.ofList ("dtn://".toList ++ n ++ slash)) = some (.dtn (String.ofList n) "")

theorem host_means {env : Env A} (he : Sound env) {slash t : Text} (hr : Reads env slash) {e : EID} (h : hostOf env slash t = .ok e) :
    Means env.eid t e := by
  unfold hostOf at h
  obtain ⟨valid, hv, h⟩ := andThen_ok h
  have hv := unwrap_ok hv
  constructor
  · intro hn hlt
    rw [valid_number hn] at hv
    cases hv
    have hp : parseU64 t = some (value t) := by
      unfold parseU64
      rw [digits_value t hn.2 0]
      have : (t.foldl (fun v c => v * 10 + (c.toNat - '0'.toNat)) 0) = value t := rfl
      rw [this]
      have e : (2 : Nat) ^ 64 = 18446744073709551616 := by decide
      rw [e] at hlt
      simp only [hlt, if_true]
    rw [hp] at h
    simp only [if_true] at h
    rw [he.reads.number _ hlt] at h
    cases h; rfl
  · intro hn
    rw [valid_name he hn] at hv
    cases hv
    have hp : parseU64 t = none := by
      obtain ⟨⟨c, h1, h2⟩, _⟩ := hn
      cases t with
      | nil => cases h1
      | cons x s =>
        have hx : x = c := by simpa using h1
        subst hx
        unfold parseU64
        rw [digits_letter (letter_not_digit h2)]
    rw [hp] at h
    simp only [if_true] at h
    rw [hr t (plain_name hn).1 (plain_name hn).2] at h
    cases h; rfl
  · intro ha h1 h2
    cases valid with
    | true => rcases name_of_valid he ha hv with h | h <;> contradiction
    | false =>
      simp only [Bool.false_eq_true, if_false] at h
      obtain ⟨e', h3, h4⟩ := andThen_ok h
      split at h4
      · rename_i hi
        cases h4
        exact ⟨unwrap_ok h3, (isNodeId_iff e).1 hi⟩
      · cases h4

theorem host_big {env : Env A} {slash t : Text} (hr : Reads env slash) (hn : Number t) (hb : 2 ^ 64 ≤ value t) :
    hostOf env slash t = .ok (.dtn (String.ofList t) "") := by
  have hp : parseU64 t = none := by
    unfold parseU64
    rw [digits_value t hn.2 0]
    have : (t.foldl (fun v c => v * 10 + (c.toNat - '0'.toNat)) 0) = value t := rfl
    rw [this]
    have e : (2 : Nat) ^ 64 = 18446744073709551616 := by decide
    rw [e] at hb
    have : ¬ value t < 18446744073709551616 := Nat.not_lt.mpr hb
    simp only [this, if_false]
  unfold hostOf
  rw [valid_number hn]
  simp only [unwrap, andThen, if_true]
  rw [hp]
  simp only
  rw [hr t hn.1 (plain_number hn)]

end Dtn.Setup
