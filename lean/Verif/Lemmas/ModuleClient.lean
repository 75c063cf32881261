import Verif.Spec.ModuleClient
import Verif.Lemmas.SetupOptions
/-! Lemmas for C115. -/

namespace Dtn.ModuleClient

open Spec.ModuleClient

variable {α : Type}

theorem run_append (k : Kind α) (s : State α) (es es' : List (Ev α)) :
    run k s (es ++ es') = (run k s es).bind fun s => run k s es' := by
  induction es generalizing s with
  | nil => rfl
  | cons e es ih =>
    simp only [List.cons_append, run]
    cases step k s e with
    | none => rfl
    | some t => exact ih t

theorem run_snoc {k : Kind α} {s t : State α} {es : List (Ev α)} {e : Ev α} (h : run k s (es ++ [e]) = some t) :
    ∃ u, run k s es = some u ∧ step k u e = some t := by
  rw [run_append] at h
  cases hu : run k s es with
  | none => rw [hu] at h; exact absurd h (by simp)
  | some u =>
    rw [hu] at h
    simp only [Option.bind_some, run] at h
    refine ⟨u, rfl, ?_⟩
    cases hs : step k u e with
    | none => rw [hs] at h; exact absurd h (by simp)
    | some v => rw [hs] at h; simpa using h

theorem orders_append (r : Option α) (es es' : List (Ev α)) : orders r (es ++ es') = orders r es ++ orders r es' := by
  induction es with
  | nil => rfl
  | cons e es ih => cases e <;> simp [orders, ih]

theorem heard_append (es es' : List (Ev α)) : heard (es ++ es') = heard es ++ heard es' := by
  induction es with
  | nil => rfl
  | cons e es ih =>
    cases e with
    | message m =>
      cases m with
      | text p => cases p <;> simp [heard, ih]
      | _ => simp [heard, ih]
    | _ => simp [heard, ih]

theorem connections_append (es es' : List (Ev α)) : connections (es ++ es') = connections es + connections es' := by
  induction es with
  | nil => simp [connections]
  | cons e es ih =>
    cases e with
    | serve b => cases b <;> simp [connections, ih]; omega
    | _ => simp [connections, ih]

theorem begun_append (es es' : List (Ev α)) : begun (es ++ es') = begun es + begun es' := by
  induction es with
  | nil => simp [begun]
  | cons e es ih =>
    cases e with
    | «begin» => simp [begun, ih]; omega
    | _ => simp [begun, ih]

theorem firstConn_append (n : Nat) (es es' : List (Ev α)) : firstConn n (es ++ es') =
    match firstConn n es with
    | some c => some c
    | none => firstConn (n + connections es) es' := by
  induction es generalizing n with
  | nil => simp [firstConn, connections]
  | cons e es ih =>
    cases e with
    | serve b =>
      cases b
      · simp [firstConn, connections, ih]
      · simp only [List.cons_append, firstConn, connections, ih]
        rw [show n + 1 + connections es = n + (connections es + 1) by omega]
    | «begin» => simp [firstConn]
    | _ => simp [firstConn, connections, ih]

theorem firstConn_begun (n : Nat) (es : List (Ev α)) : firstConn n es = none ↔ begun es = 0 := by
  induction es generalizing n with
  | nil => simp [firstConn, begun]
  | cons e es ih =>
    cases e with
    | serve b => cases b <;> simp [firstConn, begun, ih]
    | «begin» => simp [firstConn, begun]
    | _ => simp [firstConn, begun, ih]

theorem untilClose_sends (ps : List α) (cs : List (Command α)) :
    untilClose (ps.map Command.send ++ cs) = ps ++ untilClose cs := by
  induction ps with
  | nil => rfl
  | cons p ps ih => simp [untilClose, ih]

theorem untilClose_closed {cs : List (Command α)} (h : Command.close ∈ cs) (cs' : List (Command α)) :
    untilClose (cs ++ cs') = untilClose cs := by
  induction cs with
  | nil => simp at h
  | cons c cs ih =>
    cases c with
    | close => rfl
    | send p =>
      simp only [List.cons_append, untilClose, List.cons.injEq, true_and]
      exact ih (by simpa using h)

/-- The packets taken from the channel. -/
def State.takenPackets (s : State α) : List α := s.taken.map fun t => t.2.1

/-- What the invariant says about the channel. -/
def InOrder (k : Kind α) (es : List (Ev α)) (s : State α) : Prop :=
  match s.holder with
  | .nobody => Command.close ∈ orders k.registration es ∧ s.queue = [] ∧ s.takenPackets = untilClose (orders k.registration es)
  | _ => s.takenPackets.map Command.send ++ s.queue = orders k.registration es

/-- What holds in every state that can be reached. -/
structure Inv (k : Kind α) (es : List (Ev α)) (s : State α) : Prop where
  order : InOrder k es s
  conns : s.conns = connections es
  unbegun : s.holder = .client ↔ begun es = 0
  writer : ∀ c, s.holder = .writer c → firstConn 0 es = some c
  taken : ∀ t ∈ s.taken, firstConn 0 es = some t.1
  phase : ∀ c, s.phase = .connected c → c + 1 = s.conns
  serving : ∀ c, s.phase = .serving c → c < s.conns ∧ (begun es = 1 → s.holder = .writer c ∨ s.holder = .nobody) ∧ begun es ≠ 0
  passed : s.passed = (heard es).filterMap fun p => match k.relay p with | .pass q => some q | _ => none

theorem Inv.init (k : Kind α) : Inv k [] {} := by
  constructor <;> simp [InOrder, State.takenPackets, orders, connections, begun, heard]

theorem firstConn_keep {es : List (Ev α)} {e : Ev α} {c : Nat} (h : firstConn 0 es = some c) :
    firstConn 0 (es ++ [e]) = some c := by rw [firstConn_append, h]

theorem Inv.step {k : Kind α} {es : List (Ev α)} {e : Ev α} {s t : State α} (I : Inv k es s)
    (h : step k s e = some t) : Inv k (es ++ [e]) t := by
  have IO := I.order
  cases e with
  | command c =>
    simp only [ModuleClient.step] at h
    split at h
    · rename_i hn
      cases h
      simp only [InOrder, hn] at IO
      refine ⟨?_, ?_, ?_, ?_, fun t ht => firstConn_keep (I.taken t ht), I.phase, ?_, ?_⟩
      · simp only [InOrder, hn, orders_append]
        exact ⟨by simp [IO.1], IO.2.1, by rw [untilClose_closed IO.1]; exact IO.2.2⟩
      · simp [connections_append, connections, I.conns]
      · simpa [begun_append, begun] using I.unbegun
      · exact fun c hc => firstConn_keep (I.writer c hc)
      · simpa [begun_append, begun] using I.serving
      · simpa [heard_append, heard] using I.passed
    · rename_i hn
      split at h
      · cases h
        refine ⟨?_, ?_, ?_, ?_, fun t ht => firstConn_keep (I.taken t ht), I.phase, ?_, ?_⟩
        · cases hh : s.holder with
          | nobody => exact absurd hh hn
          | client =>
            simp only [InOrder, hh] at IO ⊢
            simp only [orders_append, orders, ← IO, State.takenPackets, List.append_assoc]
          | writer d =>
            simp only [InOrder, hh] at IO ⊢
            simp only [orders_append, orders, ← IO, State.takenPackets, List.append_assoc]
        · simp [connections_append, connections, I.conns]
        · simpa [begun_append, begun] using I.unbegun
        · exact fun c hc => firstConn_keep (I.writer c hc)
        · simpa [begun_append, begun] using I.serving
        · simpa [heard_append, heard] using I.passed
      · cases h
  | serve b =>
    simp only [ModuleClient.step] at h
    split at h
    · rename_i hp
      cases b with
      | true =>
        simp only [if_pos] at h
        cases h
        refine ⟨?_, ?_, ?_, ?_, fun t ht => firstConn_keep (I.taken t ht), ?_, ?_, ?_⟩
        · simpa [InOrder, orders_append, orders, State.takenPackets] using IO
        · simp [connections_append, connections, I.conns]
        · simpa [begun_append, begun] using I.unbegun
        · exact fun c hc => firstConn_keep (I.writer c hc)
        · intro c hc; simp only [Phase.connected.injEq] at hc; subst hc; rfl
        · intro c hc; simp at hc
        · simpa [heard_append, heard] using I.passed
      | false =>
        simp only [Bool.false_eq_true, if_false] at h
        cases h
        refine ⟨?_, ?_, ?_, ?_, fun t ht => firstConn_keep (I.taken t ht), I.phase, ?_, ?_⟩
        · simpa [InOrder, orders_append, orders, State.takenPackets] using IO
        · simp [connections_append, connections, I.conns]
        · simpa [begun_append, begun] using I.unbegun
        · exact fun c hc => firstConn_keep (I.writer c hc)
        · simpa [begun_append, begun] using I.serving
        · simpa [heard_append, heard] using I.passed
    · cases h
  | «begin» =>
    simp only [ModuleClient.step] at h
    cases hp : s.phase with
    | idle => rw [hp] at h; cases h
    | serving c => rw [hp] at h; cases h
    | connected c =>
      rw [hp] at h
      simp only at h
      have hc : c + 1 = s.conns := I.phase c hp
      -- the start of the writing task
      have go : ∀ u : State α, u.holder = s.holder → u.conns = s.conns → u.taken = s.taken → u.passed = s.passed →
          InOrder k (es ++ [.begin]) u → Inv k (es ++ [.begin]) (u.start c) := by
        intro u h1 h2 h3 h4 h5
        refine ⟨?_, ?_, ?_, ?_, ?_, ?_, ?_, ?_⟩
        · cases hh : u.holder <;>
            simpa [InOrder, State.start, hh, State.takenPackets] using h5
        · simp [State.start, h2, connections_append, connections, I.conns]
        · simp only [begun_append, begun, State.start]
          split
          · simp
          · rename_i hn; simpa using hn
        · intro d hd
          simp only [State.start] at hd
          split at hd
          · rename_i hcl
            simp only [Holder.writer.injEq] at hd
            rw [firstConn_append, (firstConn_begun 0 es).mpr (I.unbegun.mp (h1 ▸ hcl))]
            simp only [firstConn, Nat.zero_add, Option.some.injEq, ← I.conns, ← hc]
            omega
          · exact firstConn_keep (I.writer d (h1 ▸ hd))
        · intro t ht
          exact firstConn_keep (I.taken t (by simpa [State.start, h3] using ht))
        · intro d hd; simp [State.start] at hd
        · intro d hd
          simp only [State.start, Phase.serving.injEq] at hd
          subst hd
          refine ⟨by simp only [State.start, h2, ← hc]; omega, ?_, by simp [begun_append, begun]⟩
          intro hb
          have : begun es = 0 := by simpa [begun_append, begun] using hb
          left
          simp [State.start, h1, I.unbegun.mpr this]
        · simpa [heard_append, heard, State.start, h4] using I.passed
      cases hr : k.registration with
      | none =>
        rw [hr] at h
        simp only [Option.some.injEq] at h
        subst h
        refine go s rfl rfl rfl rfl ?_
        simpa [InOrder, orders_append, orders, hr] using IO
      | some r =>
        rw [hr] at h
        simp only at h
        split at h
        · rename_i hn
          cases h
          simp only [InOrder, hn] at IO
          refine ⟨?_, ?_, ?_, ?_, fun t ht => firstConn_keep (I.taken t ht), ?_, ?_, ?_⟩
          · simp only [InOrder, hn, orders_append]
            exact ⟨by simp [IO.1], IO.2.1, by rw [untilClose_closed IO.1]; exact IO.2.2⟩
          · simp [connections_append, connections, I.conns]
          · simp [begun_append, begun, hn]
          · exact fun c hc => firstConn_keep (I.writer c hc)
          · intro d hd; simp at hd
          · intro d hd; simp at hd
          · simpa [heard_append, heard] using I.passed
        · rename_i hn
          split at h
          · cases h
            refine go _ rfl rfl rfl rfl ?_
            cases hh : s.holder with
            | nobody => exact absurd hh hn
            | client =>
              simp only [InOrder, hh] at IO ⊢
              rw [orders_append, ← IO]
              simp [orders, State.takenPackets, hr]
            | writer d =>
              simp only [InOrder, hh] at IO ⊢
              rw [orders_append, ← IO]
              simp [orders, State.takenPackets, hr]
          · cases h
  | write b =>
    simp only [ModuleClient.step] at h
    split at h
    · rename_i c p q hh hq
      cases h
      simp only [InOrder, hh, hq] at IO
      refine ⟨?_, ?_, ?_, ?_, ?_, I.phase, ?_, ?_⟩
      · simp [InOrder, hh, orders_append, orders, ← IO, State.takenPackets]
      · simp [connections_append, connections, I.conns]
      · simpa [begun_append, begun] using I.unbegun
      · exact fun c hc => firstConn_keep (I.writer c hc)
      · intro t ht
        rcases List.mem_append.mp ht with ht | ht
        · exact firstConn_keep (I.taken t ht)
        · simp only [List.mem_singleton] at ht
          subst ht
          exact firstConn_keep (I.writer c hh)
      · simpa [begun_append, begun] using I.serving
      · simpa [heard_append, heard] using I.passed
    · rename_i c q hh hq
      cases h
      simp only [InOrder, hh, hq] at IO
      refine ⟨?_, ?_, ?_, ?_, fun t ht => firstConn_keep (I.taken t ht), I.phase, ?_, ?_⟩
      · simp only [InOrder, orders_append, orders, List.append_nil, ← IO]
        refine ⟨by simp, trivial, ?_⟩
        rw [untilClose_sends]
        simp [untilClose, State.takenPackets]
      · simp [connections_append, connections, I.conns]
      · have := I.unbegun
        rw [hh] at this
        simpa [begun_append, begun] using this
      · intro d hd; simp at hd
      · intro d hd
        obtain ⟨h1, h2, h3⟩ := I.serving d hd
        exact ⟨h1, fun _ => Or.inr rfl, by simpa [begun_append, begun] using h3⟩
      · simpa [heard_append, heard] using I.passed
    · cases h
  | message m =>
    simp only [ModuleClient.step] at h
    cases hp : s.phase with
    | idle => rw [hp] at h; cases h
    | connected c => rw [hp] at h; cases h
    | serving c =>
      rw [hp] at h
      simp only at h
      have go : ∀ u : State α, u.holder = s.holder → u.conns = s.conns → u.taken = s.taken → u.queue = s.queue →
          (u.phase = s.phase ∨ u.phase = .idle) →
          u.passed = ((heard (es ++ [.message m])).filterMap fun p => match k.relay p with | .pass q => some q | _ => none) →
          Inv k (es ++ [.message m]) u := by
        intro u h1 h2 h3 h4 h5 h6
        refine ⟨?_, ?_, ?_, ?_, ?_, ?_, ?_, h6⟩
        · simpa [InOrder, h1, h4, h3, State.takenPackets, orders_append, orders] using IO
        · simp [connections_append, connections, I.conns, h2]
        · simpa [begun_append, begun, h1] using I.unbegun
        · exact fun c hc => firstConn_keep (I.writer c (h1 ▸ hc))
        · exact fun t ht => firstConn_keep (I.taken t (h3 ▸ ht))
        · intro d hd
          rcases h5 with h5 | h5
          · rw [h5, hp] at hd; cases hd
          · rw [h5] at hd; cases hd
        · intro d hd
          rcases h5 with h5 | h5
          · rw [h5] at hd
            simpa [begun_append, begun, h1, h2] using I.serving d hd
          · rw [h5] at hd; cases hd
      have IP := I.passed
      cases m with
      | broken => cases h; exact go s rfl rfl rfl rfl (.inl rfl) (by simpa [heard_append, heard] using IP)
      | binary => cases h; exact go _ rfl rfl rfl rfl (.inr rfl) (by simpa [heard_append, heard] using IP)
      | text p =>
        cases p with
        | none => cases h; exact go s rfl rfl rfl rfl (.inl rfl) (by simpa [heard_append, heard] using IP)
        | some p =>
          simp only [Option.some.injEq, State.receive] at h
          cases hr : k.relay p with
          | pass q =>
            rw [hr] at h; cases h
            exact go _ rfl rfl rfl rfl (.inl rfl) (by simp [heard_append, heard, IP, hr])
          | error r =>
            rw [hr] at h; cases h
            exact go _ rfl rfl rfl rfl (.inl rfl) (by simp [heard_append, heard, IP, hr])
          | nothing =>
            rw [hr] at h; cases h
            exact go _ rfl rfl rfl rfl (.inl rfl) (by simp [heard_append, heard, IP, hr])
  | lost =>
    simp only [ModuleClient.step] at h
    split at h
    · cases h
      refine ⟨?_, ?_, ?_, ?_, fun t ht => firstConn_keep (I.taken t ht), ?_, ?_, ?_⟩
      · simpa [InOrder, State.return, orders_append, orders, State.takenPackets] using IO
      · simp [connections_append, connections, I.conns, State.return]
      · simpa [begun_append, begun, State.return] using I.unbegun
      · exact fun c hc => firstConn_keep (I.writer c hc)
      · intro d hd; simp [State.return] at hd
      · intro d hd; simp [State.return] at hd
      · simpa [heard_append, heard, State.return] using I.passed
    · cases h
  | finish =>
    simp only [ModuleClient.step] at h
    split at h
    · split at h
      · cases h
      cases h
      refine ⟨?_, ?_, ?_, ?_, fun t ht => firstConn_keep (I.taken t ht), ?_, ?_, ?_⟩
      · simpa [InOrder, State.return, orders_append, orders, State.takenPackets] using IO
      · simp [connections_append, connections, I.conns, State.return]
      · simpa [begun_append, begun, State.return] using I.unbegun
      · exact fun c hc => firstConn_keep (I.writer c hc)
      · intro d hd; simp [State.return] at hd
      · intro d hd; simp [State.return] at hd
      · simpa [heard_append, heard, State.return] using I.passed
    · cases h

theorem inv_run {k : Kind α} {es : List (Ev α)} {s : State α} (h : run k {} es = some s) : Inv k es s := by
  induction es using List.reverseRecOn generalizing s with
  | nil => cases h; exact Inv.init k
  | append_singleton es e ih =>
    obtain ⟨u, hu, hs⟩ := run_snoc h
    exact (ih hu).step hs

/-- The errors of the current call. -/
def reasons (k : Kind α) (es : List (Ev α)) : List String :=
  (heard es).filterMap fun p => match k.relay p with | .error r => some r | _ => none

theorem reasons_append (k : Kind α) (es es' : List (Ev α)) : reasons k (es ++ es') = reasons k es ++ reasons k es' := by
  simp [reasons, heard_append]

theorem run_within {k : Kind α} {es : List (Ev α)} (hw : Within es) {c : Nat} {s t : State α} (hp : s.phase = .serving c)
    (h : run k s es = some t) : t.phase = .serving c ∧ t.errors = s.errors ++ reasons k es ∧ t.results = s.results := by
  induction es using List.reverseRecOn generalizing t with
  | nil => cases h; simp [hp, reasons, heard]
  | append_singleton es e ih =>
    obtain ⟨u, hu, hs⟩ := run_snoc h
    obtain ⟨h1, h2, h3⟩ := ih (fun e he => hw e (by simp [he])) hu
    obtain ⟨w1, w2, w3, w4, w5⟩ := hw e (by simp)
    rw [reasons_append, ← List.append_assoc, ← h2, ← h3]
    cases e with
    | command cmd =>
      simp only [step] at hs
      split at hs
      · cases hs; simp [h1, reasons, heard]
      · split at hs
        · cases hs; simp [h1, reasons, heard]
        · cases hs
    | serve b => exact absurd rfl (w5 b)
    | «begin» => exact absurd rfl w4
    | lost => exact absurd rfl w1
    | finish => exact absurd rfl w2
    | write b =>
      simp only [step] at hs
      split at hs <;> cases hs <;> simp [h1, reasons, heard]
    | message m =>
      simp only [step, h1] at hs
      cases m with
      | broken => cases hs; simp [h1, reasons, heard]
      | binary => exact absurd rfl w3
      | text p =>
        cases p with
        | none => cases hs; simp [h1, reasons, heard]
        | some p =>
          simp only [Option.some.injEq, State.receive] at hs
          cases hr : k.relay p with
          | pass q => rw [hr] at hs; cases hs; simp [h1, reasons, heard, hr]
          | error r => rw [hr] at hs; cases hs; simp [h1, reasons, heard, hr]
          | nothing => rw [hr] at hs; cases hs; simp [h1, reasons, heard, hr]

/-- Between calls there are no errors left. -/
theorem errors_idle {k : Kind α} {es : List (Ev α)} {s : State α} (h : run k {} es = some s) :
    (∀ c, s.phase ≠ .serving c) → s.errors = [] := by
  induction es using List.reverseRecOn generalizing s with
  | nil => cases h; simp
  | append_singleton es e ih =>
    obtain ⟨u, hu, hs⟩ := run_snoc h
    have := ih hu
    intro hn
    cases e with
    | command c =>
      simp only [step] at hs
      split at hs
      · cases hs; exact this hn
      · split at hs
        · cases hs; exact this hn
        · cases hs
    | serve b =>
      simp only [step] at hs
      split at hs
      · rename_i hp
        split at hs <;> cases hs <;> exact this (by simp [hp])
      · cases hs
    | «begin» =>
      simp only [step] at hs
      split at hs
      · rename_i c hp
        split at hs
        · cases hs; exact absurd rfl (hn c)
        · split at hs
          · cases hs; exact this (by simp [hp])
          · split at hs
            · cases hs; exact absurd rfl (hn c)
            · cases hs
      · cases hs
    | write b =>
      simp only [step] at hs
      split at hs <;> cases hs <;> exact this hn
    | message m =>
      simp only [step] at hs
      split at hs
      · rename_i c hp
        split at hs
        · cases hs; exact absurd hp (hn c)
        · cases hs; rfl
        · cases hs; exact absurd hp (hn c)
        · simp only [Option.some.injEq, State.receive] at hs
          split at hs <;> subst hs <;> exact absurd hp (hn c)
      · cases hs
    | lost =>
      simp only [step] at hs
      split at hs
      · cases hs; rfl
      · cases hs
    | finish =>
      simp only [step] at hs
      split at hs
      · split at hs
        · cases hs
        · cases hs; rfl
      · cases hs

/-- With a full channel, nothing gets through. -/
theorem stuck {k : Kind α} {r : α} (hr : k.registration = some r) {es : List (Ev α)} {s t : State α}
    (hh : s.holder = .client) (hq : s.queue.length = capacity) (hp : ∀ c, s.phase ≠ .serving c) (ht : s.taken = [])
    (h : run k s es = some t) :
    t.holder = .client ∧ t.queue.length = capacity ∧ (∀ c, t.phase ≠ .serving c) ∧ t.taken = [] := by
  induction es using List.reverseRecOn generalizing t with
  | nil => cases h; exact ⟨hh, hq, hp, ht⟩
  | append_singleton es e ih =>
    obtain ⟨u, hu, hs⟩ := run_snoc h
    obtain ⟨h1, h2, h3, h4⟩ := ih hu
    cases e with
    | command c => simp [step, h1, h2] at hs
    | serve b =>
      simp only [step] at hs
      split at hs
      · rename_i hi
        split at hs <;> cases hs
        · exact ⟨h1, h2, by simp, h4⟩
        · exact ⟨h1, h2, by simp [hi], h4⟩
      · cases hs
    | «begin» =>
      simp only [step] at hs
      split at hs
      · simp [hr, h1, h2] at hs
      · cases hs
    | write b => simp [step, h1] at hs
    | message m =>
      cases hc : u.phase with
      | serving c => exact absurd hc (h3 c)
      | _ => simp [step, hc] at hs
    | lost =>
      cases hc : u.phase with
      | serving c => exact absurd hc (h3 c)
      | _ => simp [step, hc] at hs
    | finish =>
      cases hc : u.phase with
      | serving c => exact absurd hc (h3 c)
      | _ => simp [step, hc] at hs

/-- The writing task belongs to an earlier connection than the one just made. -/
theorem fresh {k : Kind α} {es : List (Ev α)} {s : State α} (h : run k {} es = some s) :
    (∀ d, s.holder = .writer d → d < s.conns) ∧ ∀ c, s.phase = .connected c → s.holder ≠ .writer c := by
  induction es using List.reverseRecOn generalizing s with
  | nil => cases h; simp
  | append_singleton es e ih =>
    obtain ⟨u, hu, hs⟩ := run_snoc h
    obtain ⟨h1, h2⟩ := ih hu
    cases e with
    | command c =>
      simp only [step] at hs
      split at hs
      · cases hs; exact ⟨h1, h2⟩
      · split at hs
        · cases hs; exact ⟨h1, h2⟩
        · cases hs
    | serve b =>
      simp only [step] at hs
      split at hs
      · split at hs <;> cases hs
        · refine ⟨fun d hd => Nat.lt_succ_of_lt (h1 d hd), ?_⟩
          intro c hc hw
          simp only [Phase.connected.injEq] at hc
          exact absurd (h1 c hw) (by omega)
        · exact ⟨h1, h2⟩
      · cases hs
    | «begin» =>
      have I := inv_run hu
      simp only [step] at hs
      split at hs
      · rename_i c hp
        have hc := I.phase c hp
        have go : ∀ v : State α, v.holder = u.holder → v.conns = u.conns →
            (∀ d, (v.start c).holder = .writer d → d < (v.start c).conns) ∧
            ∀ e, (v.start c).phase = .connected e → (v.start c).holder ≠ .writer e := by
          intro v e1 e2
          refine ⟨?_, by simp [State.start]⟩
          intro d hd
          simp only [State.start] at hd ⊢
          split at hd
          · simp only [Holder.writer.injEq] at hd; omega
          · rw [e2]; exact h1 d (e1 ▸ hd)
        split at hs
        · cases hs; exact go u rfl rfl
        · split at hs
          · cases hs; exact ⟨h1, by simp⟩
          · split at hs
            · cases hs; exact go _ rfl rfl
            · cases hs
      · cases hs
    | write b =>
      simp only [step] at hs
      split at hs <;> cases hs
      · exact ⟨h1, h2⟩
      · exact ⟨by simp, by simp⟩
    | message m =>
      simp only [step] at hs
      split at hs
      · split at hs
        · cases hs; exact ⟨h1, h2⟩
        · cases hs; exact ⟨h1, by simp⟩
        · cases hs; exact ⟨h1, h2⟩
        · simp only [Option.some.injEq, State.receive] at hs
          split at hs <;> subst hs <;> exact ⟨h1, h2⟩
      · cases hs
    | lost =>
      simp only [step] at hs
      split at hs
      · cases hs; exact ⟨h1, by simp [State.return]⟩
      · cases hs
    | finish =>
      simp only [step] at hs
      split at hs
      · split at hs
        · cases hs
        · cases hs; exact ⟨h1, by simp [State.return]⟩
      · cases hs

/-- The first connection that was used is older than the one just made. -/
theorem first_older {k : Kind α} {es : List (Ev α)} {s : State α} (h : run k {} es = some s) :
    (∀ d, firstConn 0 es = some d → d < s.conns) ∧
      ∀ c, s.phase = .connected c → ∀ d, firstConn 0 es = some d → d < c := by
  induction es using List.reverseRecOn generalizing s with
  | nil => cases h; simp [firstConn]
  | append_singleton es e ih =>
    obtain ⟨u, hu, hs⟩ := run_snoc h
    obtain ⟨h1, h2⟩ := ih hu
    have quiet : (∀ n, firstConn n [e] = none) → ∀ d, firstConn 0 (es ++ [e]) = some d → firstConn 0 es = some d := by
      intro hq d hd
      rw [firstConn_append] at hd
      cases hf : firstConn 0 es with
      | none => rw [hf, hq] at hd; cases hd
      | some c => rw [hf] at hd; exact hd
    have same : (∀ n, firstConn n [e] = none) → s.conns = u.conns → (s.phase = u.phase ∨ ∀ c, s.phase ≠ .connected c) →
        (∀ d, firstConn 0 (es ++ [e]) = some d → d < s.conns) ∧
          ∀ c, s.phase = .connected c → ∀ d, firstConn 0 (es ++ [e]) = some d → d < c := by
      intro hq e1 e2
      refine ⟨fun d hd => e1 ▸ h1 d (quiet hq d hd), ?_⟩
      intro c hc d hd
      rcases e2 with e2 | e2
      · exact h2 c (e2 ▸ hc) d (quiet hq d hd)
      · exact absurd hc (e2 c)
    cases e with
    | command c =>
      simp only [step] at hs
      split at hs
      · cases hs; exact same (fun _ => rfl) rfl (.inl rfl)
      · split at hs
        · cases hs; exact same (fun _ => rfl) rfl (.inl rfl)
        · cases hs
    | serve b =>
      simp only [step] at hs
      split at hs
      · split at hs <;> cases hs
        · have hq : ∀ n, firstConn n [Ev.serve (α := α) b] = none := by intro n; cases b <;> rfl
          refine ⟨fun d hd => Nat.lt_succ_of_lt (h1 d (quiet hq d hd)), ?_⟩
          intro c hc d hd
          simp only [Phase.connected.injEq] at hc
          exact hc ▸ h1 d (quiet hq d hd)
        · exact same (fun n => by cases b <;> rfl) rfl (.inl rfl)
      · cases hs
    | «begin» =>
      have I := inv_run hu
      have I' := inv_run h
      have hne : ∀ c, s.phase ≠ .connected c := by
        simp only [step] at hs
        split at hs
        · split at hs
          · cases hs; simp [State.start]
          · split at hs
            · cases hs; simp
            · split at hs
              · cases hs; simp [State.start]
              · cases hs
        · cases hs
      refine ⟨?_, fun c hc => absurd hc (hne c)⟩
      have hc : s.conns = u.conns := by
        rw [I.conns, I'.conns]; simp [connections_append, connections]
      intro d hd
      rw [firstConn_append] at hd
      cases hf : firstConn 0 es with
      | some x => rw [hf] at hd; rw [hc]; exact h1 d (by rw [hf]; exact hd)
      | none =>
        rw [hf] at hd
        simp only [firstConn, Nat.zero_add, Option.some.injEq] at hd
        have hp : ∃ c, u.phase = .connected c := by
          simp only [step] at hs
          split at hs
          · rename_i c hp; exact ⟨c, hp⟩
          · cases hs
        obtain ⟨c, hp⟩ := hp
        have := I.phase c hp
        rw [hc, ← hd, ← I.conns]
        omega
    | write b =>
      simp only [step] at hs
      split at hs <;> cases hs <;> exact same (fun _ => rfl) rfl (.inl rfl)
    | message m =>
      have hq : ∀ n, firstConn n [Ev.message m] = none := by intro n; rfl
      simp only [step] at hs
      split at hs
      · split at hs
        · cases hs; exact same hq rfl (.inl rfl)
        · cases hs; exact same hq rfl (.inr (by simp))
        · cases hs; exact same hq rfl (.inl rfl)
        · simp only [Option.some.injEq, State.receive] at hs
          split at hs <;> subst hs <;> exact same hq rfl (.inl rfl)
      · cases hs
    | lost =>
      simp only [step] at hs
      split at hs
      · cases hs; exact same (fun _ => rfl) rfl (.inr (by simp [State.return]))
      · cases hs
    | finish =>
      simp only [step] at hs
      split at hs
      · split at hs
        · cases hs
        · cases hs; exact same (fun _ => rfl) rfl (.inr (by simp [State.return]))
      · cases hs

theorem begin_serving {k : Kind α} {s t : State α} {c : Nat} (h : step k s .begin = some t) (hp : t.phase = .serving c) :
    s.phase = .connected c ∧ t.holder = (if s.holder = .client then .writer c else s.holder) ∧ t.errors = s.errors ∧
      t.results = s.results := by
  simp only [step] at h
  split at h
  · rename_i d hd
    split at h
    · cases h; simp only [State.start, Phase.serving.injEq] at hp ⊢; subst hp; simp [hd]
    · split at h
      · cases h; simp at hp
      · split at h
        · cases h; simp only [State.start, Phase.serving.injEq] at hp ⊢; subst hp; simp [hd]
        · cases h
  · cases h

/-- The end of a call. -/
theorem result {k : Kind α} {pre mid : List (Ev α)} {e : Ev α} {s : State α} (he : e = .lost ∨ e = .finish)
    (hw : Within mid) (h : run k {} (pre ++ .begin :: (mid ++ [e])) = some s) :
    ∃ u, run k {} pre = some u ∧ s.results = u.results ++ [verdict (reasons k mid)] := by
  rw [show pre ++ .begin :: (mid ++ [e]) = (pre ++ [.begin]) ++ mid ++ [e] by simp] at h
  obtain ⟨v, hv, hs⟩ := run_snoc h
  rw [run_append] at hv
  cases hb : run k {} (pre ++ [.begin]) with
  | none => rw [hb] at hv; cases hv
  | some b =>
    rw [hb] at hv
    simp only [Option.bind_some] at hv
    obtain ⟨u, hu, hsb⟩ := run_snoc hb
    refine ⟨u, hu, ?_⟩
    have hph : (∃ c, b.phase = .serving c) ∨ b.phase = .idle := by
      simp only [step] at hsb
      split at hsb
      · split at hsb
        · cases hsb; exact .inl ⟨_, rfl⟩
        · split at hsb
          · cases hsb; exact .inr rfl
          · split at hsb
            · cases hsb; exact .inl ⟨_, rfl⟩
            · cases hsb
      · cases hsb
    rcases hph with ⟨c, hc⟩ | hi
    · obtain ⟨q1, q2, q3⟩ := run_within hw hc hv
      obtain ⟨p1, p2, p3, p4⟩ := begin_serving hsb hc
      have hne : u.errors = [] := errors_idle hu (by simp [p1])
      have hr : s.results = v.results ++ [verdict v.errors] := by
        rcases he with rfl | rfl
        · simp only [step, q1, Option.some.injEq] at hs
          subst hs
          simp only [State.return]
          cases v.errors <;> rfl
        · simp only [step, q1] at hs
          split at hs
          · cases hs
          · cases hs
            simp only [State.return]
            cases v.errors <;> rfl
      rw [hr, q3, p4, q2, p3, hne, List.nil_append]
    · -- an idle client stays idle
      exfalso
      have idle : ∀ es : List (Ev α), Within es → ∀ w, run k b es = some w → w.phase = .idle := by
        intro es
        induction es using List.reverseRecOn with
        | nil => intro _ w hw; cases hw; exact hi
        | append_singleton es e ih =>
          intro hw w hrun
          obtain ⟨x, hx, hsx⟩ := run_snoc hrun
          have hxi := ih (fun e he => hw e (by simp [he])) x hx
          obtain ⟨w1, w2, w3, w4, w5⟩ := hw e (by simp)
          cases e with
          | command cmd =>
            simp only [step] at hsx
            split at hsx
            · cases hsx; exact hxi
            · split at hsx
              · cases hsx; exact hxi
              · cases hsx
          | serve b => exact absurd rfl (w5 b)
          | «begin» => exact absurd rfl w4
          | lost => exact absurd rfl w1
          | finish => exact absurd rfl w2
          | write b =>
            simp only [step] at hsx
            split at hsx <;> cases hsx <;> exact hxi
          | message m => simp [step, hxi] at hsx
      have hvi := idle mid hw v hv
      rcases he with rfl | rfl <;> simp [step, hvi] at hs

end Dtn.ModuleClient
