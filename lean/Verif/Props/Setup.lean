import Verif.Lemmas.SetupExample
/-! C89 to C95: the configuration of a daemon and its start. -/

namespace Dtn.Props
open Setup Spec.SetupSpec
open Discovery (Outcome)
open Spec.PeerUrlSpec (layers)

section
set_option linter.unusedSectionVars false
variable {A : Type} [DecidableEq A]

private theorem first2 {α : Type} (x y : Option α) (d : α) : first [x, y] d = x.getD (y.getD d) := by
  cases x <;> cases y <;> rfl

/-- Settings follow the command line, then the configuration file, then the documented defaults. Missing: the flags
(`C89_flags_violated`), the discovery destinations (`C89_destinations_violated`) and improper values in the file
(`C94_file_port_violated`, `C94_file_span_violated`). -/
theorem C89_settings_partial (env : Env A) (a : Args) (cfg : Config) (h : configure env a = .ok cfg)
    (hp : Proper env (a.config.getD {})) : Follows env a (a.config.getD {}) cfg := by
  obtain ⟨b, l, hb⟩ := configure_ok h
  have hb := base hb
  generalize a.config.getD {} = f at *
  obtain ⟨i1, i2⟩ := span_follows hb.announce l.announce hp.interval
  obtain ⟨j1, j2⟩ := span_follows hb.janitor l.janitor hp.janitor
  obtain ⟨p1, p2⟩ := span_follows hb.peerTimeout l.peerTimeout hp.peerTimeout
  have hi : cfg.interval = cfg.announce / 1000 := by
    have ha := l.announce
    rw [l.interval]
    cases hn : a.interval with
    | some t => rfl
    | none =>
      rw [hn] at ha
      simp only [argDuration, Outcome.ok.injEq] at ha
      rw [← ha]
      exact hb.interval
  refine ⟨?_, ?_, i1, i2, hi, j1, j2, p1, p2, ?_, ?_, l.noDiscovery, by rw [l.endpoints, hb.endpoints], ?_⟩
  · rw [l.workdir, hb.workdir, first2]
  · rw [l.webport, hb.webport]
    cases ha : a.webport with
    | some p => rfl
    | none =>
      simp only [Option.getD_none, Option.map_none]
      cases hf : f.webport with
      | none => rfl
      | some p => exact toU16_self (hp.webport p hf)
  · intro hr
    rw [l.routing, hb.routing]
    cases ha : a.routing with
    | none => cases f.routing <;> rfl
    | some r => exact if_pos (hr r ha)
  · intro hr
    rw [l.db, hb.db]
    cases ha : a.db with
    | none => cases f.db <;> rfl
    | some r => exact if_pos (hr r ha)
  · obtain ⟨x, y, hx, hy, hs⟩ := hb.statics
    obtain ⟨u, v, hu, hv, ht⟩ := l.statics
    obtain ⟨ps, e1, e2⟩ := statics_ok hy
    obtain ⟨qs, e3, e4⟩ := statics_ok hv
    rw [ht, e3, hu, hs, e1, hx, List.nil_append, List.map_append, List.map_append, e2, e4]

/-- A command line with options, over a file. -/
private def sampleArgs : Args :=
  { config := some { webport := some 8080, janitor := some "5s", nodeid := some "node1".toList
                     services := [("63".toList, "from file")]
                     routingSettings := [("static".toList, [("routes".toList, "r.csv".toList)])]
                     clas := [("http".toList, [])] }
    webport := some 3001, interval := some "5s", janitor := some "0", endpoints := ["incoming"]
    statics := ["mtcp://192.168.2.1:2342/node2".toList]
    clas := ["mtcp:port=2342".toList], globals := ["tcp:refuse-existing-bundles=true".toList]
    services := ["191:71".toList], routingOptions := ["sprayandwait.num_copies=5".toList], ecla := true }

/-- What becomes of it. -/
private def sampleCfg : Config :=
  { dests := [("224.0.0.26:3003", 0)], host := .dtn "node1" "", interval := 5000, services := [(191, "71"), (63, "from file")]
    webport := 3001, announce := 5000000, janitor := 0, endpoints := ["incoming"]
    clas := [("http".toList, []), ("mtcp".toList, [("port".toList, "2342".toList)])]
    claGlobal := [("tcp".toList, [("refuse-existing-bundles".toList, "true".toList)])]
    routingSettings := [("sprayandwait".toList, [("num_copies".toList, "5".toList)]), ("static".toList, [("routes".toList, "r.csv".toList)])]
    statics := [{ eid := .dtn "node2" "", addr := .ipv4 "192.168.2.1", conType := .static, period := none
                  claList := [("mtcp", some 2342)], lastContact := 7, fails := 0 }]
    workdir := "/tmp" }

private theorem sample_ok : configure sampleEnv sampleArgs = .ok sampleCfg := by decide +kernel

private theorem sample_proper : Proper sampleEnv (sampleArgs.config.getD {}) := by
  refine ⟨?_, ?_, ?_, ?_, ?_⟩
  · intro p hp; cases hp; decide
  · intro p hp; cases hp
  · intro t ht; cases ht
  · intro t ht; cases ht; exact ⟨5000000, rfl, rfl⟩
  · intro t ht; cases ht

example : Follows sampleEnv sampleArgs (sampleArgs.config.getD {}) sampleCfg := C89_settings_partial _ _ _ sample_ok sample_proper

/-- Without a configuration file the flags of the command line are those of the daemon, with one those of the file. -/
theorem C89_flags_partial (env : Env A) (a : Args) (cfg : Config) (h : configure env a = .ok cfg) :
    (a.config = none → FlagsOfArgs a cfg) ∧ (∀ f, a.config = some f → Proper env f → FlagsOfFile f cfg) := by
  obtain ⟨b, l, hb⟩ := configure_ok h
  constructor
  · intro hn
    rcases hb with ⟨_, e, _, rfl⟩ | ⟨f, hf, _⟩
    · refine ⟨?_, ?_, ?_, ?_, ?_, ?_, ?_, ?_⟩
      · rw [l.v4]; simp only [earlyFlags]; cases a.ipv6 <;> rfl
      · rw [l.v6]; simp only [earlyFlags]; cases a.ipv6 <;> rfl
      · rw [l.statusReports]; simp only [earlyFlags]; cases a.statusReports <;> rfl
      · rw [l.ecla]; rfl
      · rw [l.eclaPort]; rfl
      · rw [l.parallel]; simp only [earlyFlags]; cases a.parallel <;> rfl
      · rw [l.unsafeHttpd]; simp only [earlyFlags]; cases a.unsafeHttpd <;> rfl
      · rw [l.period]; rfl
    · rw [hn] at hf; cases hf
  · intro f hf hp
    rcases hb with ⟨hn, _⟩ | ⟨g, hg, w⟩
    · rw [hn] at hf; cases hf
    · rw [hg] at hf; cases hf
      refine ⟨by rw [l.v4, w.v4], by rw [l.v6, w.v6], by rw [l.statusReports, w.statusReports], by rw [l.ecla, w.ecla], ?_,
        by rw [l.parallel, w.parallel], by rw [l.unsafeHttpd, w.unsafeHttpd], by rw [l.period, w.period]⟩
      rw [l.eclaPort, w.eclaPort]
      cases he : f.eclaPort with
      | none => rfl
      | some p =>
        obtain ⟨n, rfl, hn⟩ := hp.eclaPort p he
        exact toU16_self hn

example : FlagsOfFile (sampleArgs.config.getD {}) sampleCfg := (C89_flags_partial _ _ _ sample_ok).2 _ rfl sample_proper

example : ∃ cfg, configure sampleEnv { ipv6 := true, ecla := true, eclaPort := some 7263 } = .ok cfg ∧ cfg.v6 = true ∧ cfg.eclaPort = 7263 :=
  ⟨{ host := .dtn "abcdefghij" "", workdir := "/tmp", v4 := false, v6 := true, ecla := true, eclaPort := 7263
     dests := [("[FF02::1]:3003", 0)] }, by decide +kernel, rfl, rfl⟩

/-- With a configuration file all flags of the command line are ignored: the daemon is configured as if they were not there. -/
theorem C89_flags_violated (env : Env A) (a : Args) (f : File) (h : a.config = some f) :
    configure env a = configure env { a with
      ipv4 := false, ipv6 := false, statusReports := false, ecla := false, eclaPort := none, parallel := false, unsafeHttpd := false
      period := false } := by
  unfold configure load
  dsimp only
  rw [h]
  rfl

example : sampleArgs.ecla = true ∧ sampleCfg.ecla = false := ⟨rfl, rfl⟩

/-- With a configuration file that names no destination, destinations on the command line do not replace the default one. -/
theorem C89_destinations_violated (env : Env A) (a : Args) (f : File) (cfg : Config) (h : configure env a = .ok cfg)
    (hf : a.config = some f) (hd : f.dests = []) (h4 : f.ipv4 = none) : "224.0.0.26:3003" ∈ AList.keys cfg.dests := by
  obtain ⟨b, l, hb⟩ := configure_ok h
  rcases hb with ⟨hn, _⟩ | ⟨g, hg, w⟩
  · rw [hn] at hf; cases hf
  rw [hg] at hf
  cases hf
  have hbd : "224.0.0.26:3003" ∈ AList.keys b.dests := by
    obtain ⟨x, y, h1, h2, h3, h5, h6⟩ := w.dests
    rw [hd] at h5
    cases h5
    unfold checkDests at h6
    split at h6
    · rename_i c hc
      cases h6
      unfold Announcer.Config.checkDestinations at hc
      rw [h1, h2, h4] at hc
      dsimp only
      cases h6 : x.v6 <;> rw [h6] at hc <;> cases hc <;> simp [AList.mem_keys_insert]
    · cases h6
  obtain ⟨x, y, z, h1, _, _, h5, h6, h7⟩ := l.dests
  have hy : "224.0.0.26:3003" ∈ AList.keys y.dests := by
    refine each_rel (fun b c : Config => "224.0.0.26:3003" ∈ AList.keys b.dests → "224.0.0.26:3003" ∈ AList.keys c.dests) (fun _ h => h)
      (fun _ _ _ f g h => g (f h)) ?_ h5 (by rw [h1]; exact hbd)
    intro b s c hc hm
    have hst : ∀ (d : Announcer.Config) k, "224.0.0.26:3003" ∈ AList.keys d.dests →
        "224.0.0.26:3003" ∈ AList.keys (d.store env.net k).dests := by
      intro d k hk
      unfold Announcer.Config.store
      split <;> split <;> simp [AList.mem_keys_insert, hk]
    unfold addDest at hc
    split at hc
    · rename_i d hd
      cases hc
      unfold Announcer.Config.addDestination at hd
      split at hd
      · cases hd; exact hst _ _ hm
      · split at hd
        · cases hd; exact hst _ _ hm
        · cases hd
    · cases hc
  rw [h7]
  unfold checkDests at h6
  split at h6
  · rename_i c hc
    cases h6
    unfold Announcer.Config.checkDestinations at hc
    rw [if_neg] at hc
    · cases hc; exact hy
    · intro he
      cases hde : y.dests with
      | nil => rw [hde] at hy; cases hy
      | cons p l => rw [hde] at he; cases he
  · cases h6

example : ∃ cfg, configure sampleEnv { config := some {}, dests := ["10.0.0.1"] } = .ok cfg ∧
    cfg.dests = [("10.0.0.1:3003", 0), ("224.0.0.26:3003", 0)] :=
  ⟨{ host := .dtn "abcdefghij" "", workdir := "/tmp", dests := [("10.0.0.1:3003", 0), ("224.0.0.26:3003", 0)] }, by decide +kernel, rfl⟩

/-- The node has the id asked for on the command line, or else in the file, or else a random name. -/
theorem C90_node_id (env : Env A) (he : Sound env) (a : Args) (cfg : Config) (h : configure env a = .ok cfg) :
    Means env.eid (first [a.nodeid, (a.config.getD {}).nodeid] env.rnd) cfg.host := by
  have r1 : Reads env ['/'] := he.reads.name
  have r2 : Reads env [] := by
    intro n h1 h2
    rw [List.append_nil]
    exact he.short n h1 h2
  obtain ⟨b, l, hb⟩ := configure_ok h
  have hh := l.host
  cases ha : a.nodeid with
  | some n =>
    rw [ha] at hh
    exact host_means he r1 hh
  | none =>
    rw [ha] at hh
    have hh : b.host = cfg.host := Outcome.ok.inj hh
    rw [← hh]
    rcases hb with ⟨hn, e, hr, rfl⟩ | ⟨f, hf, w⟩
    · rw [hn]
      have hm := he.rnd
      have := he.short env.rnd (plain_name hm).1 (plain_name hm).2
      rw [hr] at this
      cases this
      refine ⟨?_, fun _ => rfl, fun _ _ h => absurd hm h⟩
      intro hnum
      obtain ⟨⟨c, h1, h2⟩, _⟩ := hm
      exact absurd (hnum.2 c (show c ∈ env.rnd from List.mem_of_mem_head? (by rw [h1]; rfl))) (letter_not_digit h2)
    · rw [hf]
      have := host_means he r2 w.host
      cases hn : f.nodeid with
      | some n => rw [hn] at this; simpa [first, hn] using this
      | none => rw [hn] at this; simpa [first, hn] using this

example : Means sampleEnv.eid "node1".toList sampleCfg.host := C90_node_id _ sample_sound _ _ sample_ok

example : configure sampleEnv { nodeid := some "0023".toList } =
    .ok { host := .ipn 23 0, workdir := "/tmp", dests := [("224.0.0.26:3003", 0)] } := by decide +kernel

example : configure sampleEnv { nodeid := some "dtn://node1/mail".toList } = .panic := by decide +kernel

/-- Numbers of 64 bits and more do not become node numbers, but names that start with a digit. -/
theorem C90_big_number_violated (env : Env A) (he : Sound env) (a : Args) (n : Text) (hn : a.nodeid = some n) (hd : Number n)
    (hb : 2 ^ 64 ≤ value n) (cfg : Config) (h : configure env a = .ok cfg) : cfg.host = .dtn (String.ofList n) "" := by
  obtain ⟨b, l, _⟩ := configure_ok h
  have hh := l.host
  have r1 : Reads env ['/'] := he.reads.name
  rw [hn] at hh
  simp only at hh
  rw [host_big r1 hd hb] at hh
  exact (Outcome.ok.inj hh).symm

example : configure sampleEnv { nodeid := some "18446744073709551616".toList } =
    .ok { host := .dtn "18446744073709551616" "", workdir := "/tmp", dests := [("224.0.0.26:3003", 0)] } := by decide +kernel

/-- The convergence layers are those of the file and those given by `-C name:key=value:…`, with the settings given there. Missing: `:`
and `=` in the settings (`C91_cut_violated`), and names of layers that do not exist (`C91_unknown_violated`). -/
theorem C91_layers_partial (env : Env A) (a : Args) (cfg : Config) (h : configure env a = .ok cfg) (l : List (Text × List (Text × Text)))
    (hl : a.clas = l.map fun c => claText c.1 c.2) (hn : ∀ c ∈ l, c.1 ∈ layers)
    (hf : ∀ c ∈ l, ∀ kv ∈ c.2, Free [':', '='] kv.1 ∧ Free [':', '='] kv.2) :
    ∃ r, cfg.clas = (a.config.getD {}).clas.filter (fun c => c.1 ∈ layers) ++ r ∧
      Both (fun c d => d.1 = c.1 ∧ ∀ key, AList.get? d.2 key = given c.2 key) l r := by
  obtain ⟨b, w, hb⟩ := configure_ok h
  have hb := base hb
  obtain ⟨x, y, h1, h2, h3⟩ := w.clas
  obtain ⟨r, h4, h5⟩ := each_clas_text l hn hf x
  rw [hl, h4] at h2
  cases h2
  refine ⟨r, ?_, h5⟩
  rw [h3, h1, hb.clas]
  rfl

example : ∃ r, sampleCfg.clas = (sampleArgs.config.getD {}).clas.filter (fun c => c.1 ∈ layers) ++ r ∧
    Both (fun c d => d.1 = c.1 ∧ ∀ key, AList.get? d.2 key = given c.2 key) [("mtcp".toList, [("port".toList, "2342".toList)])] r :=
  C91_layers_partial sampleEnv sampleArgs sampleCfg sample_ok _ (by decide) (by decide) (by unfold Free; decide)

/-- The settings given by `-O name:key=value` are in force, the last one for each key; otherwise those of the file. -/
theorem C91_globals_partial (env : Env A) (a : Args) (cfg : Config) (h : configure env a = .ok cfg) (l : List (Text × Text × Text))
    (hl : a.globals = l.map fun x => globalText x.1 x.2.1 x.2.2) (hn : ∀ x ∈ l, x.1 ∈ layers)
    (hf : ∀ x ∈ l, Free [':', '='] x.2.1 ∧ Free [':', '='] x.2.2) (name key : Text) (hname : name ∈ layers) :
    inTable cfg.claGlobal name key =
      (asked l name key).or ((given (a.config.getD {}).claGlobal name).bind fun t => AList.get? t key) := by
  obtain ⟨b, w, hb⟩ := configure_ok h
  have hb := base hb
  obtain ⟨x, y, h1, h2, h3⟩ := w.globals
  obtain ⟨d, h4, h5⟩ := each_globals_text l hn hf x
  rw [hl, h4] at h2
  cases h2
  rw [h3, h5, h1, hb.globals, inTable_setTable]
  congr 1
  have : given (fileClas (a.config.getD {}).claGlobal) name = given (a.config.getD {}).claGlobal name := by
    unfold given fileClas
    rw [← List.filter_reverse, List.find?_filter]
    congr 2
    funext c
    by_cases hc : c.1 = name
    · simp [hc, (isCla_iff name).2 hname]
    · simp [hc]
  rw [this]
  cases given (a.config.getD {}).claGlobal name <;> rfl

example : inTable sampleCfg.claGlobal "tcp".toList "refuse-existing-bundles".toList = some "true".toList :=
  C91_globals_partial sampleEnv sampleArgs sampleCfg sample_ok [("tcp".toList, "refuse-existing-bundles".toList, "true".toList)]
    (by decide) (by decide) (by unfold Free; decide) _ _ (by decide)

private theorem andThen_ok_id {α : Type} (x : Outcome α) : (andThen x fun b => .ok b) = x := by cases x <;> rfl

/-- A layer that does not exist is ignored without a word: the daemon is configured as if the option was not there. -/
theorem C91_unknown_violated (env : Env A) (a : Args) (name rest : Text) (hn : name ∉ layers) (hc : ':' ∉ name) :
    configure env { a with clas := a.clas ++ [name ++ ':' :: rest] } = configure env a ∧
    configure env { a with clas := a.clas ++ [name] } = configure env a := by
  have key : ∀ t, (∀ cfg, claOption cfg t = .ok cfg) → configure env { a with clas := a.clas ++ [t] } = configure env a := by
    intro t ht
    have e : ∀ cfg, each claOption cfg (a.clas ++ [t]) = each claOption cfg a.clas := by
      intro cfg
      rw [each_append]
      have : (fun b => each claOption b [t]) = fun b => Outcome.ok b := by
        funext b
        simp only [each, ht, andThen]
      rw [this, andThen_ok_id]
    unfold configure load lateOptions
    simp only [e]
    rfl
  have hno : ¬ PeerUrl.isCla name = true := fun h => hn ((isCla_iff name).1 h)
  constructor
  · apply key
    intro cfg
    unfold claOption
    rw [split_cons hc]
    simp only [if_neg hno]
  · apply key
    intro cfg
    unfold claOption
    rw [split_free hc]
    simp only [if_neg hno]

example : configure sampleEnv { sampleArgs with clas := sampleArgs.clas ++ ["mtpc:port=2342".toList] } = .ok sampleCfg :=
  (C91_unknown_violated sampleEnv sampleArgs "mtpc".toList "port=2342".toList (by decide) (by decide)).1.trans sample_ok

/-- A value is cut at the first `=` in it. -/
theorem C91_cut_violated (cfg : Config) (name k v w : Text) (hk : Free [':', '='] k) (hv : Free [':', '='] v) (hw : Free [':', '='] w)
    (hn : ':' ∉ name) : claOption cfg (claText name [(k, v ++ '=' :: w)]) = claOption cfg (claText name [(k, v)]) := by
  have s1 : split ':' (claText name [(k, v ++ '=' :: w)]) = [name, k ++ '=' :: (v ++ '=' :: w)] := by
    rw [split_cla name hn]
    · rfl
    · intro kv hkv
      rw [List.mem_singleton] at hkv
      subst hkv
      simp only [List.mem_append, List.mem_cons, not_or]
      exact ⟨hk ':' (by simp), hv ':' (by simp), by decide, hw ':' (by simp)⟩
  have s2 : split ':' (claText name [(k, v)]) = [name, k ++ '=' :: v] := by
    rw [split_cla name hn]
    · rfl
    · simp only [List.mem_singleton, forall_eq]
      exact ⟨hk ':' (by simp), hv ':' (by simp)⟩
  have e1 : setting (k ++ '=' :: (v ++ '=' :: w)) = .ok (k, v) := by
    unfold setting
    rw [split_cons (hk '=' (by simp)), split_two (hv '=' (by simp)) (hw '=' (by simp))]
  unfold claOption
  rw [s1, s2]
  simp only [each, settings, e1, setting_text (hk '=' (by simp)) (hv '=' (by simp))]

example : claOption sampleCfg "external:name=a=b".toList = claOption sampleCfg "external:name=a".toList :=
  C91_cut_violated sampleCfg "external".toList "name".toList "a".toList "b".toList (by unfold Free; decide) (by unfold Free; decide)
    (by unfold Free; decide) (by decide)

/-- Only the first of several global settings in one option counts. -/
theorem C91_second_global_violated (cfg : Config) (name k v rest : Text) (hn : name ∈ layers) (hk : Free [':', '='] k)
    (hv : Free [':', '='] v) : globalOption cfg (globalText name k v ++ ':' :: rest) = globalOption cfg (globalText name k v) := by
  have e : globalText name k v ++ ':' :: rest = name ++ ':' :: ((k ++ '=' :: v) ++ ':' :: rest) := by simp [globalText]
  have e2 : globalText name k v = name ++ ':' :: (k ++ '=' :: v) := by simp [globalText]
  have hc : ':' ∉ k ++ '=' :: v := by
    simp only [List.mem_append, List.mem_cons, not_or]
    exact ⟨hk ':' (by simp), by decide, hv ':' (by simp)⟩
  unfold globalOption
  rw [e, e2, split_cons (layer_free hn), split_cons hc, split_two (layer_free hn) hc]

example : globalOption sampleCfg "tcp:a=1:b=2".toList = globalOption sampleCfg "tcp:a=1".toList :=
  C91_second_global_violated sampleCfg "tcp".toList "a".toList "1".toList "b=2".toList (by decide) (by unfold Free; decide)
    (by unfold Free; decide)

/-- The services given by `-S tag:payload` and in the file are offered with their payloads, and no tag is used twice: the daemon does
not start with such a configuration. Missing: payloads with a colon (`C92_colon_violated`). -/
theorem C92_services_partial (env : Env A) (a : Args) (cfg : Config) (h : configure env a = .ok cfg) (l : List (Nat × Text))
    (hl : a.services = l.map fun s => serviceText s.1 s.2) (ht : ∀ s ∈ l, s.1 < 256 ∧ ':' ∉ s.2) (m : List (Nat × String))
    (hm : (a.config.getD {}).services = m.map fun s => ((toString s.1).toList, s.2)) (hmt : ∀ s ∈ m, s.1 < 256) :
    (m.map (·.1) ++ l.map (·.1)).Nodup ∧
    ∀ t p, AList.get? cfg.services t = some p ↔ (t, p) ∈ m ∨ ∃ q, (t, q) ∈ l ∧ p = String.ofList q := by
  obtain ⟨b, w, hb⟩ := configure_ok h
  have hb := base hb
  obtain ⟨x, y, h1, h2, h3⟩ := w.services
  obtain ⟨u, v, g1, g2, g3⟩ := hb.services
  rw [hm] at g2
  rw [hl] at h2
  have map1 : ∀ (l : List (Nat × Text)) c, each serviceOption c (l.map fun s => serviceText s.1 s.2) =
      each (fun c s => serviceOption c (serviceText s.1 s.2)) c l := by
    intro l
    induction l with
    | nil => intro c; rfl
    | cons s l ih => intro c; simp only [List.map_cons, each, ih]
  have map2 : ∀ (l : List (Nat × String)) c, each fileService c (l.map fun s => ((toString s.1).toList, s.2)) =
      each (fun c s => fileService c ((toString s.1).toList, s.2)) c l := by
    intro l
    induction l with
    | nil => intro c; rfl
    | cons s l ih => intro c; simp only [List.map_cons, each, ih]
  rw [map1] at h2
  rw [map2] at g2
  have st : ∀ (c : Config) (s : Nat × Text) (d : Config), s.1 < 256 ∧ ':' ∉ s.2 → serviceOption c (serviceText s.1 s.2) = .ok d →
      AList.get? c.services s.1 = none ∧ d.services = AList.insert c.services s.1 (String.ofList s.2) :=
    fun c s d hp hs => service_step hp.1 hp.2 hs
  obtain ⟨a1, a2, a3⟩ := fresh_services (α := Nat × Text) (f := fun c s => serviceOption c (serviceText s.1 s.2)) (fun s => s.1) (fun s => String.ofList s.2)
    (fun s => s.1 < 256 ∧ ':' ∉ s.2) st ht h2
  obtain ⟨b1, b2, b3⟩ := fresh_services (α := Nat × String) (f := fun c s => fileService c ((toString s.1).toList, s.2)) (·.1) (·.2)
    (fun s => s.1 < 256) (fun c s d hp hs => fileService_step hp hs) hmt g2
  constructor
  · rw [List.nodup_append]
    refine ⟨b1, a1, ?_⟩
    intro t ht t' ht' e
    subst e
    obtain ⟨s, hs, rfl⟩ := List.mem_map.mp ht
    obtain ⟨s', hs', e⟩ := List.mem_map.mp ht'
    have := a2 s' hs'
    rw [h1, g3, e] at this
    have hv := (b3 s.1 s.2).2 (Or.inr ⟨s, hs, rfl, rfl⟩)
    rw [hv] at this
    cases this
  · intro t p
    rw [h3, a3, h1, g3, b3, g1]
    constructor
    · rintro ((h | ⟨s, hs, rfl, rfl⟩) | ⟨s, hs, rfl, rfl⟩)
      · cases h
      · exact Or.inl hs
      · exact Or.inr ⟨s.2, hs, rfl⟩
    · rintro (h | ⟨q, hq, rfl⟩)
      · exact Or.inl (Or.inr ⟨(t, p), h, rfl, rfl⟩)
      · exact Or.inr ⟨(t, q), hq, rfl, rfl⟩

example : ∀ t p, AList.get? sampleCfg.services t = some p ↔ (t, p) ∈ [(63, "from file")] ∨
    ∃ q, (t, q) ∈ [(191, "71".toList)] ∧ p = String.ofList q :=
  (C92_services_partial sampleEnv sampleArgs sampleCfg sample_ok [(191, "71".toList)] (by decide +kernel) (by decide) [(63, "from file")]
    (by decide +kernel) (by decide)).2

example : configure sampleEnv { services := ["63:a".toList, "63:b".toList] } = .err := by decide +kernel

/-- A payload is cut at the first colon in it. -/
theorem C92_colon_violated (cfg : Config) (t : Nat) (p rest : Text) (hp : ':' ∉ p) :
    serviceOption cfg (serviceText t (p ++ ':' :: rest)) = serviceOption cfg (serviceText t p) := by
  have hn : ':' ∉ (toString t).toList := by
    intro hm
    have := PeerUrl.digit_of_mem hm
    revert this; decide
  unfold serviceOption
  rw [serviceText, serviceText, split_cons hn, split_cons hp, split_two hn hp]

example : ∃ cfg, configure sampleEnv { services := ["63:see http://node1/".toList] } = .ok cfg ∧
    AList.get? cfg.services 63 = some "see http" :=
  ⟨{ host := .dtn "abcdefghij" "", workdir := "/tmp", dests := [("224.0.0.26:3003", 0)], services := [(63, "see http")] },
    by decide +kernel, by decide⟩

/-- The routing options given by `-R algorithm.key=value` are in force, the last one for each key; otherwise those of the file. -/
theorem C93_routing_options (env : Env A) (a : Args) (cfg : Config) (h : configure env a = .ok cfg) :
    ∃ l : List (Text × Text × Text), a.routingOptions = l.map (fun x => routingText x.1 x.2.1 x.2.2) ∧
      (∀ x ∈ l, Free ['.', '='] x.1 ∧ Free ['.', '='] x.2.1 ∧ '=' ∉ x.2.2) ∧
      ∀ name key, inTable cfg.routingSettings name key =
        (asked l name key).or ((given (a.config.getD {}).routingSettings name).bind fun t => AList.get? t key) := by
  obtain ⟨b, w, hb⟩ := configure_ok h
  have hb := base hb
  obtain ⟨x, y, h1, h2, h3⟩ := w.options
  have shape : ∀ (opts : List Text) (x y : Config), each routingOption x opts = .ok y → ∃ l : List (Text × Text × Text),
      opts = l.map (fun x => routingText x.1 x.2.1 x.2.2) ∧ ∀ x ∈ l, Free ['.', '='] x.1 ∧ Free ['.', '='] x.2.1 ∧ '=' ∉ x.2.2 := by
    intro opts
    induction opts with
    | nil => intro x y _; exact ⟨[], rfl, by simp⟩
    | cons o opts ih =>
      intro x y h
      obtain ⟨d, h1, h2⟩ := andThen_ok h
      obtain ⟨l, e, hl⟩ := ih d y h2
      obtain ⟨n, k, v, e2, hf⟩ := routingOption_shape h1
      refine ⟨(n, k, v) :: l, by simp [e, e2], ?_⟩
      intro z hz
      rcases List.mem_cons.mp hz with rfl | hz
      · exact hf
      · exact hl z hz
  obtain ⟨l, hl, hs⟩ := shape _ _ _ h2
  refine ⟨l, hl, hs, ?_⟩
  intro name key
  obtain ⟨d, h4, h5⟩ := each_routing_text l hs x
  rw [hl, h4] at h2
  cases h2
  rw [h3, h5, h1, hb.options, inTable_setTable]
  cases given (a.config.getD {}).routingSettings name <;> rfl

example : inTable sampleCfg.routingSettings "sprayandwait".toList "num_copies".toList = some "5".toList := by decide

example : configure sampleEnv { routingOptions := ["num_copies=5".toList] } = .panic := by decide +kernel

/-- Every well-formed routing option is accepted. -/
theorem C93_accepted (cfg : Config) (l : List (Text × Text × Text))
    (h : ∀ x ∈ l, Free ['.', '='] x.1 ∧ Free ['.', '='] x.2.1 ∧ '=' ∉ x.2.2) :
    ∃ d, each routingOption cfg (l.map fun x => routingText x.1 x.2.1 x.2.2) = .ok d := by
  obtain ⟨d, hd, _⟩ := each_routing_text l h cfg
  exact ⟨d, hd⟩

example : ∃ d, each routingOption sampleCfg ["static.routes=a.b.csv".toList] = .ok d :=
  C93_accepted sampleCfg [("static".toList, "routes".toList, "a.b.csv".toList)] (by unfold Free; decide)

/-- The daemon does not start with time spans, peers or discovery destinations on the command line that cannot be read, nor with peers
and destinations in the file. Missing: algorithms and stores that do not exist (`C94_unknown_violated`), numbers and time spans of the
file (`C94_file_port_violated`, `C94_file_span_violated`), and layers (`C91_unknown_violated`). -/
theorem C94_rejected_partial (env : Env A) (a : Args) (cfg : Config) (h : configure env a = .ok cfg) :
    (∀ t, a.interval = some t ∨ a.janitor = some t ∨ a.peerTimeout = some t → ∃ d, Span env t d) ∧
    (∀ u, u ∈ a.statics ∨ u ∈ (a.config.getD {}).statics → ∃ p, PeerUrl.parsePeerUrl env.eid env.now u = .ok p) ∧
    (∀ d, d ∈ a.dests ∨ (∃ f, a.config = some f ∧ d ∈ f.dests) → ∃ x, env.net.parse d = some x ∨ env.net.parse (d ++ ":3003") = some x) := by
  obtain ⟨b, w, hb⟩ := configure_ok h
  have hstat : ∀ (l : List Text) (ps : List Peer), l.map (PeerUrl.parsePeerUrl env.eid env.now) = ps.map .ok → ∀ u ∈ l,
      ∃ p, PeerUrl.parsePeerUrl env.eid env.now u = .ok p := by
    intro l ps e u hu
    have : PeerUrl.parsePeerUrl env.eid env.now u ∈ ps.map PeerUrl.Result.ok := by
      rw [← e]; exact List.mem_map_of_mem hu
    obtain ⟨p, _, hp⟩ := List.mem_map.mp this
    exact ⟨p, hp.symm⟩
  have hdest : ∀ (l : List String) (x y : Config), each (addDest env) x l = .ok y → ∀ d ∈ l,
      ∃ x, env.net.parse d = some x ∨ env.net.parse (d ++ ":3003") = some x := by
    intro l
    induction l with
    | nil => intro x y _ d hd; cases hd
    | cons e l ih =>
      intro x y h d hd
      obtain ⟨z, h1, h2⟩ := andThen_ok h
      rcases List.mem_cons.mp hd with rfl | hd
      · unfold addDest at h1
        split at h1
        · rename_i c hc
          unfold Announcer.Config.addDestination at hc
          split at hc
          · rename_i v hv; exact ⟨v, Or.inl hv⟩
          · split at hc
            · rename_i v hv; exact ⟨v, Or.inr hv⟩
            · cases hc
        · cases h1
      · exact ih z y h2 d hd
  refine ⟨?_, ?_, ?_⟩
  · rintro t (ht | ht | ht)
    · have := w.announce; rw [ht] at this; exact ⟨_, span_arg this⟩
    · have := w.janitor; rw [ht] at this; exact ⟨_, span_arg this⟩
    · have := w.peerTimeout; rw [ht] at this; exact ⟨_, span_arg this⟩
  · rintro u (hu | hu)
    · obtain ⟨x, y, _, h2, _⟩ := w.statics
      obtain ⟨ps, _, e⟩ := statics_ok h2
      exact hstat _ _ e u hu
    · obtain ⟨x, y, _, h2, _⟩ := (base hb).statics
      obtain ⟨ps, _, e⟩ := statics_ok h2
      exact hstat _ _ e u hu
  · rintro d (hd | ⟨f, hf, hd⟩)
    · obtain ⟨x, y, z, _, _, _, h5, _⟩ := w.dests
      exact hdest _ _ _ h5 d hd
    · rcases hb with ⟨hn, _⟩ | ⟨g, hg, l⟩
      · rw [hn] at hf; cases hf
      · rw [hg] at hf
        cases hf
        obtain ⟨x, y, _, _, _, h5, _⟩ := l.dests
        exact hdest _ _ _ h5 d hd

example : (∀ t, sampleArgs.interval = some t ∨ sampleArgs.janitor = some t ∨ sampleArgs.peerTimeout = some t → ∃ d, Span sampleEnv t d) :=
  (C94_rejected_partial sampleEnv sampleArgs sampleCfg sample_ok).1

example : configure sampleEnv { interval := some "soon" } = .panic := by decide +kernel

/-- Algorithms and stores that do not exist are ignored on the command line: the daemon starts with others. -/
theorem C94_unknown_violated (env : Env A) (a : Args) (r d : String) (hr : r ∉ algorithms) (hd : d ∉ stores) :
    configure env { a with routing := some r } = configure env { a with routing := none } ∧
    configure env { a with db := some d } = configure env { a with db := none } := by
  have hr : r ∉ routingAlgorithms := hr
  have hd : d ∉ bundleStores := hd
  constructor
  · unfold configure load lateOptions
    simp only [if_neg hr]
    rfl
  · unfold configure load lateOptions
    simp only [if_neg hd]
    rfl

example : configure sampleEnv { routing := some "spray", db := some "sqlite" } =
    .ok { host := .dtn "abcdefghij" "", workdir := "/tmp", dests := [("224.0.0.26:3003", 0)], routing := "epidemic", db := "mem" } := by
  decide +kernel

/-- A number in the file that is no port number is taken modulo 2^16. -/
theorem C94_file_port_violated (env : Env A) (a : Args) (f : File) (cfg : Config) (h : configure env a = .ok cfg) (hf : a.config = some f)
    (hw : a.webport = none) (p : Nat) (hp : p ≤ 65535) (k : Int) (hk : f.webport = some (p + 65536 * k)) : cfg.webport = p := by
  obtain ⟨b, w, hb⟩ := configure_ok h
  have hb := base hb
  rw [w.webport, hw, Option.getD_none, hb.webport, hf, Option.getD_some, hk, Option.getD_some]
  unfold toU16
  omega

example : configure sampleEnv { config := some { webport := some 68536 } } =
    .ok { host := .dtn "abcdefghij" "", workdir := "/tmp", dests := [("224.0.0.26:3003", 0)], webport := 3000 } := by decide +kernel

/-- A time span in the file that cannot be read counts as 0: no announcements, no cleaning up, or peers that time out at once. -/
theorem C94_file_span_violated (env : Env A) (a : Args) (f : File) (cfg : Config) (h : configure env a = .ok cfg) (hf : a.config = some f)
    (t : String) (ht : env.duration t = none) : (a.interval = none → f.interval = some t → cfg.announce = 0) ∧
      (a.janitor = none → f.janitor = some t → cfg.janitor = 0) ∧
      (a.peerTimeout = none → f.peerTimeout = some t → cfg.peerTimeout = 0) := by
  obtain ⟨b, w, hb⟩ := configure_ok h
  have hb := base hb
  rw [hf] at hb
  have key : ∀ dflt b c, b = fileDuration env dflt (some t) → argDuration env b none = .ok c → c = 0 := by
    intro dflt b c h1 h2
    unfold fileDuration at h1
    dsimp only at h1
    rw [ht] at h1
    cases h2
    exact h1
  refine ⟨?_, ?_, ?_⟩
  · intro h1 h2
    have hx := hb.announce; have hy := w.announce
    rw [Option.getD_some, h2] at hx; rw [h1] at hy
    exact key _ _ _ hx hy
  · intro h1 h2
    have hx := hb.janitor; have hy := w.janitor
    rw [Option.getD_some, h2] at hx; rw [h1] at hy
    exact key _ _ _ hx hy
  · intro h1 h2
    have hx := hb.peerTimeout; have hy := w.peerTimeout
    rw [Option.getD_some, h2] at hx; rw [h1] at hy
    exact key _ _ _ hx hy

example : configure sampleEnv { config := some { janitor := some "10" } } =
    .ok { host := .dtn "abcdefghij" "", workdir := "/tmp", dests := [("224.0.0.26:3003", 0)], janitor := 0 } := by decide +kernel

/-- A daemon that started runs what its configuration asks for: store, routing, agents for the node and all endpoints, the static peers,
the convergence layers with their ports, and the background tasks. -/
theorem C95_running (env : Env A) (cfg : Config) (d : Daemon) (h : startDtnd env cfg = .ok d) : Running env cfg d := (start_ok h).1

private def sampleDaemon : Daemon :=
  { cfg := sampleCfg, store := "mem", routing := "epidemic"
    clas := [{ name := "http", port := 3001 }, { name := "mtcp", port := 2342 }], refuse := [true, true]
    peers := [("node2", { eid := .dtn "node2" "", addr := .ipv4 "192.168.2.1", conType := .static, period := none
                          claList := [("mtcp", some 2342)], lastContact := 7, fails := 0 })]
    agents := [AppAgent.with (.dtn "node1" ""), AppAgent.with (.dtn "node1" "incoming")]
    janitor := false, discovery := true, ecla := none }

example : Running sampleEnv sampleCfg sampleDaemon := C95_running _ _ _ (by decide +kernel)

/-- When the daemon starts: if store and algorithm exist, endpoints can be read, static peers have node names, and layers exist and
have proper settings. -/
theorem C95_starts (env : Env A) (cfg : Config) (hs : cfg.db ∈ stores) (hr : cfg.routing ∈ algorithms)
    (he : ∀ t ∈ cfg.endpoints, ∃ e, Endpoint env cfg.host t e) (hp : ∀ p ∈ cfg.statics, p.eid.node ≠ none)
    (hc : ∀ c ∈ cfg.clas, c.1 ∈ layers) (hx : ∀ c ∈ cfg.clas, c.1 = "external".toList → AList.get? c.2 "name".toList ≠ none ∧
      (∀ t, AList.get? c.2 "port".toList = some t → ∃ p, IsPort t p) ∧
      ∀ t, AList.get? c.2 "discovery_only".toList = some t → t = "true".toList ∨ t = "false".toList) :
    ∃ d, startDtnd env cfg = .ok d := by
  have hs : cfg.db ∈ bundleStores := hs
  have hr : cfg.routing ∈ routingAlgorithms := hr
  have newcla : ∀ c ∈ cfg.clas, ∃ x, newCla cfg c = .ok x := by
    intro c hcm
    have hl := hc c hcm
    have hxe := hx c hcm
    obtain ⟨n, m⟩ := c
    dsimp only at hl hxe
    unfold newCla
    dsimp only
    split
    · rename_i e
      obtain ⟨x1, x2, x3⟩ := hxe e
      unfold newExternal
      cases hn : AList.get? m "name".toList with
      | none => exact absurd hn x1
      | some name =>
        have p1 : ∃ q, readable Routing.StaticRouting.parseU16 0 (AList.get? m "port".toList) = .ok q := by
          cases hq : AList.get? m "port".toList with
          | none => exact ⟨0, rfl⟩
          | some t =>
            obtain ⟨p, hp, rfl⟩ := x2 t hq
            refine ⟨p, ?_⟩
            simp only [readable, Routing.StaticRouting.parseU16_toString p (by omega)]
            rfl
        have p2 : ∃ q, readable parseBool false (AList.get? m "discovery_only".toList) = .ok q := by
          cases hq : AList.get? m "discovery_only".toList with
          | none => exact ⟨false, rfl⟩
          | some t =>
            rcases x3 t hq with rfl | rfl
            · exact ⟨true, rfl⟩
            · exact ⟨false, rfl⟩
        obtain ⟨q1, p1⟩ := p1
        obtain ⟨q2, p2⟩ := p2
        rw [p1]
        simp only [andThen]
        rw [p2]
        exact ⟨_, rfl⟩
    · rename_i h1
      split
      · exact ⟨_, rfl⟩
      rename_i h2
      split
      · exact ⟨_, rfl⟩
      rename_i h3
      split
      · exact ⟨_, rfl⟩
      rename_i h4
      split
      · exact ⟨_, rfl⟩
      rename_i h5
      split
      · exact ⟨_, rfl⟩
      rename_i h6
      split
      · exact ⟨_, rfl⟩
      rename_i h7
      simp only [layers, List.mem_cons, List.not_mem_nil, or_false] at hl
      rcases hl with h | h | h | h | h | h | h <;> contradiction
  unfold startDtnd
  rw [if_neg (not_not_intro hs), if_neg (not_not_intro hr)]
  obtain ⟨d1, e1, c1⟩ := each_ok (f := startCla) (l := cfg.clas) (fun d => d.cfg = cfg) (fun d c hd hcm => by
    obtain ⟨x, hx⟩ := newcla c hcm
    refine ⟨{ d with clas := d.clas ++ [x], refuse := d.refuse ++ [refuseSetting d.cfg c] }, ?_, hd⟩
    unfold startCla; rw [hd, hx]; rfl) (b := { cfg, store := cfg.db, routing := cfg.routing }) rfl
  obtain ⟨d2, e2, c2⟩ := each_ok (f := startPeer) (l := cfg.statics) (fun d => d.cfg = cfg) (fun d p hd hpm => by
    have := hp p hpm
    cases hn : p.eid.node with
    | none => exact absurd hn this
    | some n =>
      refine ⟨{ d with peers := AList.insert d.peers n p }, ?_, hd⟩
      unfold startPeer Peers.add
      rw [hn]; rfl) c1
  obtain ⟨d3, e3, c3⟩ := each_ok (f := startEndpoint env) (l := cfg.endpoints) (fun d => d.cfg = cfg) (fun d t hd htm => by
    obtain ⟨e, h⟩ := he t htm
    refine ⟨{ d with agents := Registry.register d.agents (AppAgent.with e) }, ?_, hd⟩
    unfold startEndpoint
    rw [hd]
    rcases h with h | ⟨h1, h2⟩
    · rw [h]; rfl
    · rw [h1, h2]; rfl) (b := { d2 with agents := Registry.register d2.agents (AppAgent.with cfg.host) }) c2
  rw [e1]
  simp only [andThen]
  rw [e2]
  simp only
  rw [e3]
  exact ⟨_, rfl⟩

example : ∃ d, startDtnd sampleEnv sampleCfg = .ok d :=
  C95_starts _ _ (by decide) (by decide)
    (by intro t ht; simp only [sampleCfg, List.mem_singleton] at ht; subst ht; exact ⟨.dtn "node1" "incoming", Or.inr ⟨by decide +kernel, by decide +kernel⟩⟩)
    (by decide) (by decide) (by intro c hc; simp only [sampleCfg, List.mem_cons, List.not_mem_nil, or_false] at hc; rcases hc with rfl | rfl <;> exact fun h => absurd h (by decide))

/-- Global settings are said to override local ones. For refusing bundles that are in the store already it is the other way round. -/
theorem C91_override_violated (env : Env A) (cfg : Config) (d : Daemon) (h : startDtnd env cfg = .ok d)
    (_hg : inTable cfg.claGlobal "tcp".toList "refuse-existing-bundles".toList = some "true".toList) (m : AList Text Text)
    (hm : cfg.clas = [("tcp".toList, m)]) (hl : AList.get? m "refuse-existing-bundles".toList = some "false".toList) :
    d.refuse = [false] := by
  rw [(start_ok h).2, hm]
  simp only [List.map_cons, List.map_nil, refuseSetting, hl]
  rfl

example : ∃ d, startDtnd sampleEnv { sampleCfg with clas := [("tcp".toList, [("refuse-existing-bundles".toList, "false".toList)])] } =
    .ok d ∧ d.refuse = [false] := by
  obtain ⟨d, hd⟩ : ∃ d, startDtnd sampleEnv
      { sampleCfg with clas := [("tcp".toList, [("refuse-existing-bundles".toList, "false".toList)])] } = .ok d := by
    refine C95_starts _ _ (by decide) (by decide) ?_ (by decide) (by decide)
      (by intro c hc; simp only [List.mem_cons, List.not_mem_nil, or_false] at hc; subst hc; exact fun h => absurd h (by decide))
    intro t ht
    simp only [sampleCfg, List.mem_singleton] at ht
    subst ht
    exact ⟨.dtn "node1" "incoming", Or.inr ⟨by decide +kernel, by decide +kernel⟩⟩
  exact ⟨d, hd, C91_override_violated _ _ _ hd (by decide) _ rfl (by decide)⟩

end
end Dtn.Props
