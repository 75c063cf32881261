import Verif.Lemmas.ModuleClient
import Verif.Lemmas.StaticRouting
import Verif.Model.Ecla
/-! C115: the client library of external modules carries packets faithfully in both directions. -/

namespace Dtn.Props

open Spec.ModuleClient ModuleClient

variable {α : Type}

/-- **Order.** Whatever the user, the daemon and the connection do, the packets put on a connection are those of the commands in
order, up to the first `close`, none skipped and none twice; once the channel is empty, all of them have been. All go to
one connection, that of the first call of `serve` that got as far as to start writing. -/
theorem C115_in_order (k : Kind α) (es : List (Ev α)) (s : State α) (h : run k {} es = some s) :
    (s.taken.map fun t => t.2.1) <+: untilClose (orders k.registration es) ∧
    (begun es ≠ 0 → s.queue = [] → (s.taken.map fun t => t.2.1) = untilClose (orders k.registration es)) ∧
    ∀ t ∈ s.taken, firstConn 0 es = some t.1 := by
  have I := inv_run h
  have IO := I.order
  refine ⟨?_, ?_, I.taken⟩
  · cases hh : s.holder with
    | nobody =>
      simp only [InOrder, hh, State.takenPackets] at IO
      exact IO.2.2 ▸ List.prefix_refl _
    | client =>
      simp only [InOrder, hh, State.takenPackets] at IO
      rw [← IO, untilClose_sends]
      exact List.prefix_append _ _
    | writer d =>
      simp only [InOrder, hh, State.takenPackets] at IO
      rw [← IO, untilClose_sends]
      exact List.prefix_append _ _
  · intro hb hq
    cases hh : s.holder with
    | nobody =>
      simp only [InOrder, hh, State.takenPackets] at IO
      exact IO.2.2
    | client => exact absurd (I.unbegun.mp hh) hb
    | writer d =>
      simp only [InOrder, hh, hq, State.takenPackets] at IO
      rw [← IO, untilClose_sends]
      simp [untilClose]

/-- **Registration.** A convergence layer module that gives no commands before `serve` has connected registers with its first
packet, under its name and with its beacon setting and port. -/
theorem C115_registers_first (name id : String) (beacon : Bool) (port : Option Nat) (pre post : List (Ev EclaPacket))
    (s : State EclaPacket) (hp : orders (some (.register name beacon port)) pre = [])
    (h : run (ecla name id beacon port) {} (pre ++ .begin :: post) = some s) :
    s.taken = [] ∨ (s.taken.head?.map fun t => t.2.1) = some (.register name beacon port) := by
  obtain ⟨h1, -, -⟩ := C115_in_order _ _ _ h
  rw [orders_append] at h1
  simp only [ecla] at h1
  rw [hp] at h1
  simp only [List.nil_append, orders, Option.toList_some, List.map_cons, List.map_nil, List.cons_append, untilClose] at h1
  cases ht : s.taken with
  | nil => exact .inl rfl
  | cons t ts =>
    rw [ht] at h1
    right
    simp only [List.map_cons, List.cons_prefix_cons] at h1
    simp [h1.1]

/-- **Relaying.** A convergence layer module is handed exactly the daemon's registrations, bundles and beacons, in order, with its
own id filled in and otherwise unchanged. -/
theorem C115_relays (name id : String) (beacon : Bool) (port : Option Nat) (es : List (Ev EclaPacket)) (s : State EclaPacket)
    (h : run (ecla name id beacon port) {} es = some s) : s.passed = (heard es).flatMap (told id) := by
  rw [(inv_run h).passed]
  generalize heard es = ps
  induction ps with
  | nil => rfl
  | cons p ps ih =>
    cases p <;> simp only [List.filterMap_cons, List.flatMap_cons, ecla, told, List.cons_append, List.nil_append] <;>
      rw [← ih] <;> rfl

/-- **Relaying to a router.** An external router is handed exactly the packets of the daemon, in order and unchanged. -/
theorem C115_router_relays (es : List (Ev α)) (s : State α) (h : run (erouting α) {} es = some s) : s.passed = heard es := by
  rw [(inv_run h).passed]
  simp [erouting]

theorem reasons_ecla (name id : String) (beacon : Bool) (port : Option Nat) (es : List (Ev EclaPacket)) :
    reasons (ecla name id beacon port) es = complaints (heard es) := by
  unfold reasons
  generalize heard es = ps
  induction ps with
  | nil => rfl
  | cons p ps ih =>
    cases p <;> simp only [List.filterMap_cons, ecla, complaints] <;>
      rw [← ih] <;> rfl

/-- **Result.** A call of `serve` that ends returns the first error that the daemon reported during it, and success if there was
none; errors of earlier calls do not count. -/
theorem C115_result (name id : String) (beacon : Bool) (port : Option Nat) (pre mid : List (Ev EclaPacket)) (e : Ev EclaPacket)
    (s : State EclaPacket) (he : e = .lost ∨ e = .finish) (hw : Within mid)
    (h : run (ecla name id beacon port) {} (pre ++ .begin :: (mid ++ [e])) = some s) :
    ∃ u, run (ecla name id beacon port) {} pre = some u ∧ s.results = u.results ++ [verdict (complaints (heard mid))] := by
  obtain ⟨u, h1, h2⟩ := result he hw h
  exact ⟨u, h1, by rw [h2, reasons_ecla]⟩

/-- **Result for a router.** -/
theorem C115_router_result (pre mid : List (Ev α)) (e : Ev α) (s : State α) (he : e = .lost ∨ e = .finish) (hw : Within mid)
    (h : run (erouting α) {} (pre ++ .begin :: (mid ++ [e])) = some s) :
    ∃ u, run (erouting α) {} pre = some u ∧ s.results = u.results ++ [.ok] := by
  obtain ⟨u, h1, h2⟩ := result he hw h
  refine ⟨u, h1, ?_⟩
  rw [h2]
  have : reasons (erouting α) mid = [] := by
    unfold reasons
    exact List.filterMap_eq_nil_iff.mpr fun p _ => rfl
  rw [this]
  rfl

/-- **How long.** The first call of `serve` that got as far as to start writing returns, while the connection is up, only after a
`close`. -/
theorem C115_serves_until (k : Kind α) (es : List (Ev α)) (s : State α) (h : run k {} (es ++ [.finish]) = some s)
    (hb : begun es = 1) : Command.close ∈ orders k.registration es := by
  obtain ⟨u, hu, hs⟩ := run_snoc h
  have I := inv_run hu
  simp only [step] at hs
  split at hs
  · rename_i c hc
    split at hs
    · cases hs
    · rename_i hn
      have hO := I.order
      rcases (I.serving c hc).2.1 hb with hh | hh
      · exact absurd hh hn
      · simp only [InOrder, hh] at hO; exact hO.1
  · cases hs

/-- **Address.** A client is made for the texts `ip:port` without further colons whose port is a decimal number below 65536, and for
no others. -/
theorem C115_address (router : Bool) (addr ip : Setup.Text) (port : Nat) : ModuleClient.new router addr = .client ip port ↔
    ∃ p, addr = ip ++ ':' :: p ∧ ':' ∉ ip ∧ ':' ∉ p ∧ Spec.Denotes p port := by
  constructor
  · intro h
    unfold ModuleClient.new at h
    split at h
    · rename_i a b hab
      split at h
      · rename_i q hq
        simp only [Made.client.injEq] at h
        obtain ⟨rfl, rfl⟩ := h
        obtain ⟨h1, h2⟩ := Setup.split_join ':' addr _ _ hab
        exact ⟨b, by simpa using h1, h2 _ (by simp), h2 _ (by simp), (Routing.StaticRouting.parseU16_iff _ _).mp hq⟩
      · cases router <;> simp at h
    · cases h
  · rintro ⟨p, rfl, h1, h2, h3⟩
    unfold ModuleClient.new
    rw [Setup.split_two h1 h2]
    simp only [(Routing.StaticRouting.parseU16_iff _ _).mpr h3]

/-- A convergence layer module's client refuses every other address; it never panics. -/
theorem C115_refuses (addr : Setup.Text) : ModuleClient.new false addr ≠ .panicked := by
  unfold ModuleClient.new
  split
  · split <;> simp
  · simp

/-- An address with two colons, as every IPv6 address with a port has, is refused, although the daemon's web server listens on IPv6
addresses. -/
theorem C115_ipv6_violated (router : Bool) (a b c : Setup.Text) :
    ModuleClient.new router (a ++ ':' :: (b ++ ':' :: c)) = .refused := by
  unfold ModuleClient.new
  split
  · rename_i x y hxy
    obtain ⟨h1, h2⟩ := Setup.split_join ':' _ _ _ hxy
    exfalso
    have hx := List.count_eq_zero.mpr (h2 x (by simp))
    have hy := List.count_eq_zero.mpr (h2 y (by simp))
    have := congrArg (List.count ':') h1
    simp [hx, hy] at this
    omega
  · rfl

/-- The client of a router panics at a port that is no number, where it should return an error. -/
theorem C115_bad_port_violated : ModuleClient.new true "127.0.0.1:http".toList = .panicked := by decide +kernel

/-- **Reconnecting.** A client cannot be used again: in every later call of `serve` that connects, `serve` may return at once, and
reports success unless the daemon has complained; no packet, not even the registration, is put on that connection. -/
theorem C115_reconnect_violated (k : Kind α) (es : List (Ev α)) (s t : State α) (c : Nat) (h : run k {} es = some s)
    (hb : begun es ≠ 0) (hs : step k s .begin = some t) (ht : t.phase = .serving c) :
    (∃ u, step k t .finish = some u ∧ u.results = s.results ++ [.ok]) ∧
    ∀ es' u, run k t es' = some u → ∀ x ∈ u.taken, x.1 ≠ c := by
  have I := inv_run h
  obtain ⟨h1, h2, h3, h4⟩ := begin_serving hs ht
  have hf := (fresh h).2 c h1
  have hn : s.holder ≠ .client := fun e => hb (I.unbegun.mp e)
  rw [if_neg hn] at h2
  have he : t.errors = [] := by rw [h3]; exact errors_idle h (by simp [h1])
  refine ⟨⟨t.return, ?_, ?_⟩, ?_⟩
  · simp [step, ht, h2, hf]
  · simp [State.return, he, h4]
  · intro es' u hu x hx
    have hr : run k {} (es ++ .begin :: es') = some u := by
      rw [run_append, h]; simp only [Option.bind_some, run, hs]; exact hu
    have hx := (inv_run hr).taken x hx
    rw [firstConn_append] at hx
    cases hfc : firstConn 0 es with
    | none => exact absurd ((firstConn_begun 0 es).mp hfc) hb
    | some d =>
      rw [hfc] at hx
      simp only [Option.some.injEq] at hx
      have := (first_older h).2 c h1 d hfc
      omega

/-- **Too many commands.** A convergence layer module whose users have queued 100 commands before `serve` has connected never
registers: `serve` waits for ever for room in a channel that nobody reads. -/
theorem C115_full_violated (name id : String) (beacon : Bool) (port : Option Nat) (cs : List (Command EclaPacket))
    (hc : cs.length = 100) (es : List (Ev EclaPacket)) (s : State EclaPacket)
    (h : run (ecla name id beacon port) {} (cs.map .command ++ es) = some s) :
    s.taken = [] ∧ s.passed = [] ∧ .ok ∉ s.results ∧ step (ecla name id beacon port) s .begin = none := by
  rw [run_append] at h
  have hq : ∀ (ds : List (Command EclaPacket)) (q : List (Command EclaPacket)), q.length + ds.length ≤ 100 →
      run (ecla name id beacon port) { queue := q } (ds.map .command) = some { queue := q ++ ds } := by
    intro ds
    induction ds with
    | nil => intro q _; simp [run]
    | cons d ds ih =>
      intro q hl
      simp only [List.length_cons] at hl
      have hs : step (ecla name id beacon port) { queue := q } (.command d) = some { queue := q ++ [d] } := by
        simp only [step, reduceCtorEq, if_false]
        exact if_pos (by simp only [capacity]; omega)
      simp only [List.map_cons, run, hs, Option.bind_some]
      rw [ih (q ++ [d]) (by simp; omega)]
      simp
  rw [show ({} : State EclaPacket) = { queue := [] } from rfl, hq cs [] (by simp [hc])] at h
  simp only [List.nil_append, Option.bind_some] at h
  have key : ∀ es : List (Ev EclaPacket), ∀ s, run (ecla name id beacon port) { queue := cs } es = some s →
      s.holder = .client ∧ s.queue.length = capacity ∧ (∀ c, s.phase ≠ .serving c) ∧ s.taken = [] ∧ s.passed = [] ∧
        .ok ∉ s.results := by
    intro es
    induction es using List.reverseRecOn with
    | nil => intro s hs; cases hs; simp [hc, capacity]
    | append_singleton es e ih =>
      intro s hs
      obtain ⟨u, hu, hst⟩ := run_snoc hs
      obtain ⟨h1, h2, h3, h4, h5, h6⟩ := ih u hu
      have hst' := stuck (r := .register name beacon port) rfl (es := [e]) h1 h2 h3 h4 (by simp [run, hst] :
        run (ecla name id beacon port) u [e] = some s)
      refine ⟨hst'.1, hst'.2.1, hst'.2.2.1, hst'.2.2.2, ?_⟩
      cases e with
      | command c => simp [step, h1, h2] at hst
      | serve b =>
        simp only [step] at hst
        split at hst
        · split at hst <;> cases hst
          · exact ⟨h5, h6⟩
          · exact ⟨h5, by simp [h6]⟩
        · cases hst
      | «begin» =>
        simp only [step] at hst
        split at hst
        · simp [ecla, h1, h2] at hst
        · cases hst
      | write b => simp [step, h1] at hst
      | message m =>
        cases hp : u.phase with
        | serving c => exact absurd hp (h3 c)
        | _ => simp [step, hp] at hst
      | lost =>
        cases hp : u.phase with
        | serving c => exact absurd hp (h3 c)
        | _ => simp [step, hp] at hst
      | finish =>
        cases hp : u.phase with
        | serving c => exact absurd hp (h3 c)
        | _ => simp [step, hp] at hst
  obtain ⟨h1, h2, h3, h4, h5, h6⟩ := key es s h
  refine ⟨h4, h5, h6, ?_⟩
  simp only [step]
  split
  · simp [ecla, h1, h2]
  · rfl

/-- **Too early.** Packets that are queued before `serve` has connected go out before the registration, and the daemon ignores them:
whatever state it is in, a bundle or beacon from a module that has not registered changes nothing. -/
theorem C115_early_violated (name id : String) (beacon : Bool) (port : Option Nat) (p : EclaPacket) (post : List (Ev EclaPacket))
    (s : State EclaPacket) (h : run (ecla name id beacon port) {} (.command (.send p) :: .serve true :: .begin :: post) = some s) :
    (s.taken = [] ∨ (s.taken.head?.map fun t => t.2.1) = some p) ∧
    ∀ (d : Ecla.State) (c : Nat) (a : Ecla.Addr) (m : Ecla.Module) (q : Ecla.Packet),
      d.poisoned = false → AList.get? d.modules a = some m → m.active = false → (∀ n b o, q ≠ .register n b o) →
      d.handlePacket c a q = d := by
  refine ⟨?_, ?_⟩
  · obtain ⟨h1, -, -⟩ := C115_in_order _ _ _ h
    simp only [orders, untilClose] at h1
    cases ht : s.taken with
    | nil => exact .inl rfl
    | cons t ts =>
      rw [ht] at h1
      right
      simp only [List.map_cons, List.cons_prefix_cons] at h1
      simp [h1.1]
  · intro d c a m q hp hm ha hq
    unfold Ecla.State.handlePacket
    rw [if_neg (by simp [hp])]
    simp only [hm, ha, Bool.false_eq_true, if_false]
    split
    · rfl
    · cases q with
      | register n b o => exact absurd rfl (hq n b o)
      | _ => rfl

/-- The client of a convergence layer module for the examples. -/
def exampleModule : Kind EclaPacket := ecla "lora" "me" true (some 4556)

/-- A bundle for the examples. -/
def exampleData (dst : String) : EclaPacket := .data "" dst "b1" [1, 2, 3]

/-- **Lost packets.** After the connection has ended, commands are still accepted without an error, and their packets are lost. -/
theorem C115_lost_violated : ∃ s, run exampleModule {}
      [.serve true, .begin, .write true, .lost, .command (.send (exampleData "n2")), .write false] = some s ∧
    s.results = [.ok] ∧ s.queue = [] ∧ s.taken = [(0, .register "lora" true (some 4556), true), (0, exampleData "n2", false)] := by
  refine ⟨_, rfl, ?_⟩
  decide +kernel

/-- **Panic.** A message that is not UTF-8 makes `serve` panic. -/
theorem C115_binary_violated (k : Kind α) (s : State α) (c : Nat) (hs : s.phase = .serving c) :
    ∃ t, step k s (.message .binary) = some t ∧ t.results = s.results ++ [.panicked] := by
  refine ⟨{ s with phase := .idle, errors := [], results := s.results ++ [.panicked] }, ?_, rfl⟩
  simp [step, hs]

/-- A session: two commands after the registration, three packets and an error from the daemon, then `close`. -/
def exampleSession : List (Ev EclaPacket) :=
  [.serve true, .begin, .command (.send (exampleData "n2")), .write true,
   .message (.text (some (.registered (.dtn "n1" "") "dtn://n1/"))), .write true,
   .message (.text (some (.data "" "n3" "b2" [4]))), .message .broken, .message (.text none),
   .message (.text (some (.beacon (.dtn "n3" "") "x" []))), .message (.text (some (.error "bad"))),
   .command (.send (exampleData "n4")), .write true, .command .close, .write true, .finish]

-- C115_in_order, C115_registers_first, C115_relays, C115_result, C115_serves_until
example : ∃ s, run exampleModule {} exampleSession = some s ∧
    (s.taken.map fun t => t.2.1) = [.register "lora" true (some 4556), exampleData "n2", exampleData "n4"] ∧
    s.passed = [.registered (.dtn "n1" "") "dtn://n1/", .data "me" "n3" "b2" [4], .beacon (.dtn "n3" "") "me" []] ∧
    s.results = [.refused "bad"] := by
  refine ⟨_, rfl, ?_⟩
  decide +kernel

-- C115_reconnect_violated: after a lost connection
example : ∃ s t, run exampleModule {} [.serve true, .begin, .write true, .lost, .serve true] = some s ∧
    step exampleModule s .begin = some t ∧ t.phase = .serving 1 := ⟨_, _, rfl, rfl, rfl⟩

-- C115_router_relays, C115_router_result
example : ∃ s, run (erouting Nat) {} [.command (.send 7), .serve true, .begin, .write true, .message (.text (some 3)), .lost] =
    some s ∧ s.passed = [3] ∧ s.taken = [(0, 7, true)] ∧ s.results = [.ok] := by
  refine ⟨_, rfl, ?_⟩
  decide +kernel

-- C115_full_violated
example : ∃ s, run exampleModule {} ((List.replicate 100 (.command (.send (exampleData "n2")))) ++ [.serve true]) = some s ∧
    s.phase = .connected 0 := by
  refine ⟨_, rfl, ?_⟩
  decide +kernel

-- C115_early_violated
example : ∃ s, run exampleModule {} [.command (.send (exampleData "n2")), .serve true, .begin, .write true] = some s ∧
    s.taken = [(0, exampleData "n2", true)] := by
  refine ⟨_, rfl, ?_⟩
  decide +kernel

-- C115_address
example : ModuleClient.new true "127.0.0.1:3000".toList = .client "127.0.0.1".toList 3000 := by decide +kernel
example : ModuleClient.new false "[::1]:3000".toList = .refused := by decide +kernel

end Dtn.Props
