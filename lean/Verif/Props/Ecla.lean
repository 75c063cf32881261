import Verif.Lemmas.EclaOrder
/-!
Properties C49, C74, C76, C77, C78: modules that implement convergence layers outside the daemon (`cla/ecla`).
-/

namespace Dtn.Props
open Spec.Ecla Ecla

/-- The name `ble`. -/
def eclaBle : Bytes := [98, 108, 101]

/-- The name `lora`. -/
def eclaLora : Bytes := [108, 111, 114, 97]

/-- The name `mtcp`, a configured layer. -/
def eclaMtcp : Bytes := [109, 116, 99, 112]

/-- Connection `c` is accepted, recorded and read from. -/
def eclaUp (c : Nat) (e : Ev) : List Ev := [e, .proceed c, .proceed c]

/-- Two modules, one over TCP and one over a web socket, register under different names. -/
def eclaTwo : List Ev :=
  eclaUp 0 (.acceptTcp "127.0.0.1:4000") ++ eclaUp 1 .acceptWs ++
    [.packet 0 (.register eclaBle true none), .packet 1 (.register eclaLora false (some 7))]

/-- The state after `eclaTwo`. -/
def eclaTwoState : State := (run (start [eclaMtcp] true) eclaTwo).getD {}

theorem eclaTwo_after : After [eclaMtcp] true eclaTwo eclaTwoState := by
  unfold After eclaTwoState; decide +kernel

theorem eclaTwo_noReuse : NoReuse [eclaMtcp] true eclaTwo := by
  intro pre addr post s he hs
  have h0 : pre = [] := by
    cases pre with
    | nil => rfl
    | cons e pre =>
      exfalso
      simp only [eclaTwo, eclaUp, List.cons_append, List.nil_append, List.cons.injEq] at he
      have hm : Ev.acceptTcp addr ∈ pre ++ Ev.acceptTcp addr :: post := by simp
      rw [← he.2] at hm
      simp at hm
  subst h0
  cases hs
  simp [start]

/-! ## C49 -/

/-- C49: the active module of every connection that is up is registered as a convergence layer under its name, and no
name is registered twice. Missing: it does not hold after a panic (C74) or if a TCP address is used again too soon. -/
theorem C49_active_module_is_registered_partial (clas : List Bytes) (tcp : Bool) (evs : List Ev) (s : State)
    (h : After clas tcp evs s) (hn : NoReuse clas tcp evs) (hs : Sound s) (hd : clas.Nodup)
    (c : Nat) (a : Addr) (n : Bytes) (hc : Connected s c a) (ha : ActiveAs s a n) :
    n ∈ s.clas ∧ s.clas.Nodup := by
  have hi := inv_after h hn hs
  exact ⟨(hi.names n).mpr (Or.inr ⟨a, ⟨c, .serving, hc, rfl⟩, ha⟩), hi.nodup hd⟩

example : Sound eclaTwoState ∧ Connected eclaTwoState 0 (.remote "127.0.0.1:4000") ∧
    ActiveAs eclaTwoState (.remote "127.0.0.1:4000") eclaBle := by
  refine ⟨⟨?_, ?_⟩, ?_, ⟨true, eclaBle, .tcp, true⟩, ?_, rfl, rfl⟩
  all_goals first | decide +kernel | (unfold Connected; decide +kernel)

/-- C49: two connections that are up never have active modules of the same name. Missing: as above. -/
theorem C49_names_unique_partial (clas : List Bytes) (tcp : Bool) (evs : List Ev) (s : State)
    (h : After clas tcp evs s) (hn : NoReuse clas tcp evs) (hs : Sound s)
    (c d : Nat) (a b : Addr) (n : Bytes) (hc : Connected s c a) (hd : Connected s d b)
    (ha : ActiveAs s a n) (hb : ActiveAs s b n) : c = d := by
  have hi := inv_after h hn hs
  have hab := hi.one a b n ⟨⟨c, .serving, hc, rfl⟩, ha⟩ ⟨⟨d, .serving, hd, rfl⟩, hb⟩
  subst hab
  exact hi.uniq c d a _ _ hc hd (by decide) (by decide)

example : Connected eclaTwoState 1 (.number 0) ∧ ActiveAs eclaTwoState (.number 0) eclaLora := by
  refine ⟨?_, ⟨true, eclaLora, .websocket, true⟩, ?_, rfl, rfl⟩
  all_goals first | decide +kernel | (unfold Connected; decide +kernel)

/-- C49: names of active modules have 1 to 64 bytes and are not those of configured layers. -/
theorem C49_name_lengths (clas : List Bytes) (tcp : Bool) (evs : List Ev) (s : State)
    (h : After clas tcp evs s) (a : Addr) (n : Bytes) (ha : ActiveAs s a n) :
    1 ≤ n.length ∧ n.length ≤ 64 ∧ n ∉ clas := by
  obtain ⟨m, hm, hact, rfl⟩ := ha
  have hb := basic_after h
  obtain ⟨h1, h2⟩ := hb.len a m hm hact
  exact ⟨List.length_pos_iff.mpr h1, h2, hb.fresh a m hm hact⟩

/-- C49: the configured layers stay registered, whatever modules do. -/
theorem C49_configured_layers_stay (clas : List Bytes) (tcp : Bool) (evs : List Ev) (s : State)
    (h : After clas tcp evs s) (n : Bytes) (hn : n ∈ clas) : n ∈ s.clas := (basic_after h).stay n hn

/-- C49: every registered layer is a configured one or that of a module whose connection has not ended; so after a
module disconnects its layer is gone. Missing: as above. -/
theorem C49_gone_after_disconnect_partial (clas : List Bytes) (tcp : Bool) (evs : List Ev) (s : State)
    (h : After clas tcp evs s) (hn : NoReuse clas tcp evs) (hs : Sound s) (n : Bytes) (hc : n ∈ s.clas) :
    n ∈ clas ∨ ∃ (c : Nat) (k : Conn), s.conns[c]? = some k ∧ ¬ Ended s c ∧ ActiveAs s k.addr n := by
  have hi := inv_after h hn hs
  rcases (hi.names n).mp hc with h0 | ⟨a, ⟨c, p, hA, hp⟩, hact⟩
  · exact Or.inl h0
  · right
    simp only [State.At] at hA
    cases hk : s.conns[c]? with
    | none => simp [hk] at hA
    | some k =>
      simp [hk] at hA
      refine ⟨c, k, hk, ?_, by rw [hA.1]; exact hact⟩
      simp only [Ended, hk, Option.map_some, Option.some.injEq, hA.2]
      rintro rfl
      cases hp

/-- The TCP module of `eclaTwo` leaves. -/
def eclaOneLeft : List Ev := eclaTwo ++ [.stop 0, .proceed 0, .proceed 0, .proceed 0]

example : ((run (start [eclaMtcp] true) eclaOneLeft).getD {}).clas = [eclaMtcp, eclaLora] := by decide +kernel

/-- A client registers, goes away and comes back from the same port before the daemon has cleaned up. -/
def eclaReuse : List Ev :=
  eclaUp 0 (.acceptTcp "127.0.0.1:4000") ++ [.packet 0 (.register eclaBle true none), .acceptTcp "127.0.0.1:4000",
    .proceed 1, .proceed 1, .stop 0, .proceed 0, .proceed 0, .proceed 0, .stop 1, .proceed 1]

/-- C49 fails if a TCP address is used again too soon: both connections have ended, but the name stays registered. -/
theorem C49_address_reuse_violated :
    ∃ evs s, After [eclaMtcp] true evs s ∧ Sound s ∧ (∀ k ∈ s.conns, k.phase = .gone) ∧ s.modules = [] ∧
      eclaBle ∈ s.clas ∧ eclaBle ∉ [eclaMtcp] := by
  refine ⟨eclaReuse, (run (start [eclaMtcp] true) eclaReuse).getD {}, ?_, ⟨?_, ?_⟩, ?_, ?_, ?_, ?_⟩
  · unfold After; decide +kernel
  all_goals decide +kernel

/-! ## C74 -/

/-- C74: as long as no module sends a malformed service block or binary data, and none registers a second time, no panic
happens. Missing: modules that do (see below) and clients that use an address again too soon. -/
theorem C74_well_behaved_modules_are_safe_partial (clas : List Bytes) (tcp : Bool) (evs : List Ev) (s : State)
    (h : After clas tcp evs s) (hn : NoReuse clas tcp evs) (hw : WellFormed evs)
    (hr : ∀ c, registrations c evs ≤ 1) : Sound s ∧ ∀ k ∈ s.conns, k.phase ≠ .crashed := by
  obtain ⟨hs, -⟩ := sound_after h hn hw hr
  refine ⟨hs, ?_⟩
  intro k hk hc
  obtain ⟨c, hc'⟩ := List.getElem?_of_mem hk
  exact (inv_after h hn hs).sound c k.addr (hc ▸ at_of hc')

example : WellFormed eclaTwo ∧ ∀ c, registrations c eclaTwo ≤ 1 := by
  constructor
  · intro c p hp
    simp [eclaTwo, eclaUp] at hp
    rcases hp with ⟨-, rfl⟩ | ⟨-, rfl⟩ <;> exact ⟨by simp, by simp⟩
  · intro c
    simp only [registrations, eclaTwo, eclaUp, List.cons_append, List.nil_append, List.countP_cons, List.countP_nil]
    by_cases h0 : (0 : Nat) = c
    · subst h0; decide
    · by_cases h1 : (1 : Nat) = c
      · subst h1; decide
      · simp [h0, h1]

/-- C74 fails: once an active module has sent a service block that cannot be read, no module table changes any more, no
bundle or beacon of any module is accepted, and every transfer to any module fails, for ever. -/
theorem C74_bad_beacon_stops_all_modules_violated (s t u : State) (c : Nat) (a : Addr) (n : Bytes) (eid : EID)
    (addr : String) (b : Ecla.Block) (evs : List Ev) (hc : Connected s c a) (ha : ActiveAs s a n)
    (hl : a.layer ∈ s.connectors) (hb : b ≠ .fine) (hst : step s (.packet c (.beacon eid addr b)) = some t)
    (hr : run t evs = some u) (hs : Sound s) :
    u.modules = s.modules ∧ u.clas = s.clas ∧ u.received = s.received ∧ u.encounters = s.encounters ∧
    ∃ r, u.results = s.results ++ r ∧ ∀ x ∈ r, x.2 ≠ some true := by
  obtain ⟨m, hm, hact, -⟩ := ha
  obtain ⟨k, hk, hk2⟩ : ∃ k, s.conns[c]? = some k ∧ (k.addr = a ∧ k.phase = .serving) := by
    cases hk : s.conns[c]? with
    | none => simp [Connected, hk] at hc
    | some k => exact ⟨k, rfl, by simpa [Connected, hk] using hc⟩
  obtain ⟨rfl, hph⟩ := hk2
  have ht : t = { s.crash c with poisoned := true } := by
    simp only [step, hk, hph, if_true] at hst
    rw [if_neg (by simp [hs.2]), if_neg (by simp)] at hst
    simp only [State.handlePacket, hs.1, hm, hl, hact] at hst
    cases b with
    | fine => exact absurd rfl hb
    | undecodable => simpa using hst.symm
    | unconvertible => simpa using hst.symm
  have hp : t.poisoned = true := by rw [ht]
  obtain ⟨-, h2, h3, h4, h5, r, h6, h7⟩ := poisoned_run hp hr
  rw [ht] at h2 h3 h4 h5 h6
  refine ⟨h2, h3, h4, h5, r, h6, ?_⟩
  intro x hx; rw [h7 x hx]; simp

example : (step eclaTwoState (.packet 0 (.beacon .none "x" .undecodable))).isSome = true ∧
    Addr.layer (.remote "127.0.0.1:4000") ∈ eclaTwoState.connectors := by decide +kernel

/-- Two registrations under bad names in one go. -/
def eclaTwiceRejected : List Ev :=
  eclaUp 0 .acceptWs ++ [.packet 0 (.register [] true none), .packet 0 (.register [] true none)]

/-- C74 fails in the same way if a module whose name was refused tries once more. -/
theorem C74_second_refusal_stops_all_modules_violated :
    ∃ evs s, After [eclaMtcp] true evs s ∧ WellFormed evs ∧ s.poisoned = true := by
  refine ⟨eclaTwiceRejected, (run (start [eclaMtcp] true) eclaTwiceRejected).getD {}, ?_, ?_, ?_⟩
  · unfold After; decide +kernel
  · intro c p hp
    simp [eclaTwiceRejected, eclaUp] at hp
    obtain ⟨-, rfl⟩ := hp
    exact ⟨by simp, by simp⟩
  · decide +kernel

/-- A web socket client sends binary data. -/
def eclaBinary : List Ev :=
  eclaTwo ++ [.packet 1 .binary] ++ [.acceptWs, .proceed 2, .announce]

/-- C74 fails for binary web socket data: other web socket modules can no longer connect, and the next announcement stops
all modules. -/
theorem C74_binary_data_stops_all_modules_violated :
    ∃ s, After [eclaMtcp] true eclaBinary s ∧ (s.conns[2]?).map Conn.phase = some .crashed ∧ s.poisoned = true := by
  refine ⟨(run (start [eclaMtcp] true) eclaBinary).getD {}, ?_, ?_, ?_⟩
  · unfold After; decide +kernel
  all_goals decide +kernel

/-! ## C76 -/

/-- C76: a bundle given to the layer of a module is put into the queue of the module's connection once, if there is room,
and into no other queue. Missing: after a panic or with an address used again too soon. -/
theorem C76_bundle_reaches_its_module_partial (clas : List Bytes) (tcp : Bool) (evs : List Ev) (s t : State)
    (h : After clas tcp evs s) (hn : NoReuse clas tcp evs) (hs : Sound s) (n : Bytes) (dest : String) (b : Bundle)
    (hst : step s (.submit n dest (some b)) = some t) (c : Nat) (a : Addr) (hc : Connected s c a) :
    (ActiveAs s a n → (waiting s c).length < 100 → waiting t c = waiting s c ++ [.data dest b]) ∧
    (¬ ActiveAs s a n → waiting t c = waiting s c) := by
  have hi := inv_after h hn hs
  have ht := tables_after h
  simp only [step] at hst
  split at hst
  · rename_i hcr
    cases hst
    simp only [State.submit, hs.1, Bool.false_eq_true, if_false]
    have hA : s.At c a .serving := hc
    have hw := waiting_sendAll (ch := fun m => decide (m.name = n)) (p := .data dest b) (r := some false)
      (ms := s.modules) ht hs.2 ht.wf hA
    obtain ⟨f, hf⟩ := hi.peer c a _ hA rfl
    have hiff := named_iff ht (basic_after h) hcr a
    constructor
    · intro ha hroom
      have := hw.trans (if_pos ⟨hiff.mpr ha, f, hf⟩)
      rw [offered, capacity, if_pos hroom] at this
      exact this
    · intro ha
      exact hw.trans (if_neg (fun hh => ha (hiff.mp hh.1)))
  · cases hst

/-- C76: a packet that was queued for a connection is never lost, doubled or overtaken: what was written on the connection
followed by what waits for it only grows at the end. -/
theorem C76_written_in_order (s t : State) (evs : List Ev) (hr : run s evs = some t) (c : Nat) :
    written s c ++ waiting s c <+: written t c ++ waiting t c := grows_run hr c

example : (run eclaTwoState [.write 0, .write 0]).isSome = true ∧
    written ((run eclaTwoState [.write 0, .write 0]).getD {}) 0 = [.registered, .beacon] := by decide +kernel

/-- C76: a transfer is reported as failed exactly if no module of that name is in the table. Missing: as above, and a
report of success does not mean the bundle was taken (see below). -/
theorem C76_failure_reported_partial (clas : List Bytes) (tcp : Bool) (evs : List Ev) (s t : State)
    (h : After clas tcp evs s) (hs : Sound s) (n : Bytes) (dest : String) (b : Bundle)
    (hst : step s (.submit n dest (some b)) = some t) :
    ∃ r, t.results = s.results ++ [(n, some r)] ∧ (r = true ↔ ∃ a, ActiveAs s a n) := by
  have ht := tables_after h
  simp only [step] at hst
  split at hst
  · rename_i hcr
    cases hst
    simp only [State.submit, hs.1, Bool.false_eq_true, if_false]
    rw [sendAll_results, result_sendAll hs.2]
    have hiff : (∃ a m, (a, m) ∈ s.modules ∧ decide (m.name = n) = true ∧ m.layer ∈ s.connectors) ↔
        ∃ a, ActiveAs s a n := exists_congr fun a => named_iff ht (basic_after h) hcr a
    by_cases he : ∃ a, ActiveAs s a n
    · rw [if_pos (hiff.mpr he)]
      exact ⟨true, rfl, by simp [he]⟩
    · rw [if_neg (fun hh => he (hiff.mp hh))]
      exact ⟨false, rfl, by simp [he]⟩
  · cases hst

/-- Any bundle. -/
def eclaBundle : Bundle :=
  { primary := { bid := "a", source := .none, destination := .none, reportTo := .none, creationTime := 0, lifetime := 60 }
    canonicals := [] }

example : (step eclaTwoState (.submit eclaBle "aa:bb" (some eclaBundle))).isSome = true ∧
    waiting ((step eclaTwoState (.submit eclaBle "aa:bb" (some eclaBundle))).getD {}) 0 =
      [.registered, .beacon, .data "aa:bb" eclaBundle] := by decide +kernel

/-- The queue of a module that does not read its connection fills up. -/
def eclaFull : List Ev := eclaTwo ++ List.replicate 98 .announce ++ [.submit eclaBle "aa:bb" (some eclaBundle)]

/-- C76 fails: a transfer is reported successful although the bundle was dropped because the queue is full. -/
theorem C76_success_without_transfer_violated :
    ∃ s, After [eclaMtcp] true eclaFull s ∧ Sound s ∧ s.results = [(eclaBle, some true)] ∧
      ∀ k ∈ s.conns, Out.data "aa:bb" eclaBundle ∉ k.queue ++ k.written := by
  refine ⟨(run (start [eclaMtcp] true) eclaFull).getD {}, ?_, ⟨?_, ?_⟩, ?_, ?_⟩
  · unfold After; decide +kernel
  all_goals decide +kernel

/-! ## C77 -/

/-- C77: at every announcement each connected module with room in its queue gets one beacon. Missing: modules that did not
ask for beacons get them too (see below). -/
theorem C77_announcements_reach_modules_partial (clas : List Bytes) (evs : List Ev) (s t : State)
    (h : After clas true evs s) (hn : NoReuse clas true evs) (hs : Sound s) (hst : step s .announce = some t)
    (c : Nat) (a : Addr) (hc : Connected s c a) (hroom : (waiting s c).length < 100) :
    waiting t c = waiting s c ++ [.beacon] := by
  have hi := inv_after h hn hs
  have ht := tables_after h
  simp only [step] at hst
  split at hst
  · cases hst
    simp only [State.announce, hs.1, Bool.false_eq_true, if_false]
    have hA : s.At c a .serving := hc
    have hw := waiting_sendAll (ch := fun m => m.beacon) (p := .beacon) (r := some false) (ms := s.modules) ht hs.2 ht.wf hA
    obtain ⟨f, hf⟩ := hi.peer c a _ hA rfl
    obtain ⟨m, hm⟩ := hi.has c a _ hA rfl
    have hcon : m.layer ∈ s.connectors := by
      rw [connectors_after h]
      cases m.layer <;> simp [start]
    have := hw.trans (if_pos ⟨⟨m, AList.mem_of_get? hm, ht.beacons a m hm, hcon⟩, f, hf⟩)
    rw [offered, capacity, if_pos hroom] at this
    exact this
  · cases hst

example : (step eclaTwoState .announce).isSome = true ∧ (waiting eclaTwoState 1).length < 100 := by decide +kernel

/-- C77 fails: the second module of `eclaTwo` asked for no beacons but gets one. -/
theorem C77_unwanted_beacons_violated :
    After [eclaMtcp] true eclaTwo eclaTwoState ∧ Ev.packet 1 (.register eclaLora false (some 7)) ∈ eclaTwo ∧
      Out.beacon ∈ waiting eclaTwoState 1 :=
  ⟨eclaTwo_after, by decide +kernel, by decide +kernel⟩

/-! ## C78 -/

/-- C78: a registration succeeds exactly if the name has 1 to 64 bytes and no layer is registered under it; the module is
told so. Missing: after a panic or with an address used again too soon. -/
theorem C78_registration_answered_partial (clas : List Bytes) (evs : List Ev) (s t : State)
    (h : After clas true evs s) (hn : NoReuse clas true evs) (n : Bytes) (x : Bool) (y : Option Nat) (c : Nat) (a : Addr)
    (hst : step s (.packet c (.register n x y)) = some t) (ht : Sound t)
    (hc : Connected s c a) (hna : ∀ m, ¬ ActiveAs s a m) (hroom : (waiting s c).length + 1 < 100) :
    if 1 ≤ n.length ∧ n.length ≤ 64 ∧ n ∉ s.clas then
      ActiveAs t a n ∧ t.clas = s.clas ++ [n] ∧ waiting t c = waiting s c ++ [.registered, .beacon]
    else
      (∀ m, ¬ ActiveAs t a m) ∧ t.clas = s.clas ∧
      waiting t c = waiting s c ++ [if n ∈ s.clas ∧ n ≠ [] ∧ n.length ≤ 64 then .alreadyRegistered else .invalidName] := by
  have hs := sound_back hst ht
  have hi := inv_after h hn hs
  have hT := tables_after h
  have hA : s.At c a .serving := hc
  obtain ⟨f, hf⟩ := hi.peer c a _ hA rfl
  obtain ⟨m, hm⟩ := hi.has c a _ hA rfl
  have hina : m.active = false := by
    cases hact : m.active with
    | false => rfl
    | true => exact absurd ⟨m, hm, hact, rfl⟩ (hna m.name)
  have hcon : a.layer ∈ s.connectors := by
    rw [connectors_after h]
    cases a.layer <;> simp [start]
  obtain ⟨k, hk, hk2⟩ : ∃ k, s.conns[c]? = some k ∧ (k.addr = a ∧ k.phase = .serving) := by
    cases hk : s.conns[c]? with
    | none => simp [Connected, hk] at hc
    | some k => exact ⟨k, rfl, by simpa [Connected, hk] using hc⟩
  obtain ⟨rfl, hph⟩ := hk2
  have hreg : t = s.register c k.addr m n := by
    simp only [step, hk, hph, if_true] at hst
    rw [if_neg (by simp [hs.2]), if_neg (by simp)] at hst
    simp only [State.handlePacket, hs.1, hm, hcon, hina] at hst
    simpa using hst.symm
  have hsend : ∀ (u : State) (p : Out), u.conns.length = s.conns.length → u.peers = s.peers →
      (waiting u c).length < 100 → waiting (u.send k.addr p) c = waiting u c ++ [p] := by
    intro u p h1 h2 h3
    have hw := waiting_send u k.addr p c
    rw [hw.trans (if_pos ⟨⟨f, by rw [h2]; exact hf⟩, by rw [h1]; exact At.lt hA⟩), offered, capacity, if_pos h3]
  have hlen : ∀ (u : State) p, (u.send k.addr p).conns.length = u.conns.length := by
    intro u p; unfold State.send; split
    · rfl
    · simp
  have hrej : ∀ o, t = (s.send k.addr o).close c k.addr →
      (∀ m, ¬ ActiveAs t k.addr m) ∧ t.clas = s.clas ∧ waiting t c = waiting s c ++ [o] := by
    rintro o rfl
    obtain ⟨h1, h2, -⟩ := close_fields (s.send k.addr o) c k.addr
    refine ⟨?_, by simp [h2], ?_⟩
    · intro m'
      rw [ActiveAs.congr (t := (s.send k.addr o).close c k.addr) (s := s) (by simp [h1])]
      exact hna m'
    · rw [waiting_congr (close_conns (s := s.send k.addr o) (a := k.addr) (d := c) (b := f) (by simpa using hf) ht.1)]
      exact hsend s o rfl rfl (by omega)
  unfold State.register nameMaxLen at hreg
  by_cases hbad : n = [] ∨ n.length > 64
  · rw [if_pos hbad] at hreg
    rw [if_neg (by
      rintro ⟨h1, h2, -⟩
      rcases hbad with rfl | hb
      · simp at h1
      · omega)]
    rw [if_neg (by
      rintro ⟨-, h1, h2⟩
      rcases hbad with rfl | hb
      · exact h1 rfl
      · omega)]
    exact hrej _ hreg
  · rw [if_neg hbad] at hreg
    rw [not_or] at hbad
    have hlen1 : 1 ≤ n.length := List.length_pos_iff.mpr hbad.1
    by_cases hin : n ∈ s.clas
    · rw [if_neg (not_not_intro hin)] at hreg
      rw [if_neg (fun hh => hh.2.2 hin), if_pos ⟨hin, hbad.1, Nat.not_lt.mp hbad.2⟩]
      exact hrej _ hreg
    · rw [if_pos hin, hT.beacons _ m hm] at hreg
      simp only [if_true] at hreg
      rw [if_pos ⟨hlen1, Nat.not_lt.mp hbad.2, hin⟩]
      subst hreg
      refine ⟨?_, by simp, ?_⟩
      · refine ⟨{ m with name := n, active := true }, ?_, rfl, rfl⟩
        simp [hT.beacons _ m hm]
      · have e1 := hsend { s with
            modules := AList.insert s.modules k.addr { m with name := n, active := true }
            clas := s.clas ++ [n]
            created := s.created ++ [n] } .registered rfl rfl (by change (waiting s c).length < 100; omega)
        have e2 := hsend (State.send { s with
            modules := AList.insert s.modules k.addr { m with name := n, active := true }
            clas := s.clas ++ [n]
            created := s.created ++ [n] } k.addr .registered) .beacon (hlen _ _) (by simp) (by
              rw [e1]
              change (waiting s c ++ [Out.registered]).length < 100
              simp; omega)
        have e3 := e2.trans (by rw [e1, List.append_assoc])
        rw [hT.beacons _ m hm] at e3
        exact e3

/-- A module that is connected but has not registered. -/
def eclaWaiting : List Ev := eclaTwo ++ eclaUp 2 .acceptWs

example : (step ((run (start [eclaMtcp] true) eclaWaiting).getD {}) (.packet 2 (.register eclaBle true none))).isSome =
    true ∧ AList.get? ((run (start [eclaMtcp] true) eclaWaiting).getD {}).modules (.number 1) =
      some ⟨false, [], .websocket, true⟩ := by decide +kernel

end Dtn.Props
