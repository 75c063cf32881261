import Verif.Spec.ConnectN
import Verif.Lemmas.EclaWatch
import Verif.Lemmas.StaticRouting
/-! Lemmas about the program that connects N nodes: its clients. -/

namespace Dtn.ConnectN
open ModuleClient (EclaPacket)
open Spec.ConnectNSpec

/-! ## Numbers and addresses -/

theorem parseUsize_iff (text : List Char) (n : Nat) : parseUsize text = some n ↔ Decimal text n := by
  constructor
  · intro h
    unfold parseUsize at h
    split at h
    · cases h
    · rename_i hne
      cases hd : Routing.StaticRouting.digits 0 (Routing.StaticRouting.stripPlus text) with
      | none => rw [hd] at h; cases h
      | some m =>
        rw [hd] at h
        simp only at h
        split at h
        · rename_i hm
          injection h with h; subst h
          have hds := Routing.StaticRouting.digits_some hd
          refine ⟨Routing.StaticRouting.stripPlus text, ?_, hne, hds, ?_, hm⟩
          · unfold Routing.StaticRouting.stripPlus
            cases text with
            | nil => left; simp
            | cons c t =>
              by_cases hc : c = '+'
              · right; simp [hc]
              · left; simp [hc]
          · rw [Routing.StaticRouting.digits_eq _ _ hds] at hd
            injection hd with hd; exact hd.symm
        · cases h
  · rintro ⟨ds, ht, hne, hds, hn, hlt⟩
    have hs : Routing.StaticRouting.stripPlus text = ds := by
      rcases ht with rfl | rfl
      · unfold Routing.StaticRouting.stripPlus
        rw [if_neg]
        intro h
        have := hds '+' (List.mem_of_mem_head? h)
        revert this; decide
      · simp [Routing.StaticRouting.stripPlus]
    unfold parseUsize
    rw [hs, if_neg hne, Routing.StaticRouting.digits_eq _ _ hds, ← hn]
    simp [hlt]

theorem toString_toList (i : Nat) : (toString i).toList = Nat.toDigits 10 i := by
  show (Nat.repr i).toList = _
  simp [Nat.repr]

/-- The number a text of digits stands for. -/
def label (s : String) : Nat := Nat.ofDigitChars 10 s.toList 0

theorem label_toString (i : Nat) : label (toString i) = i := by
  unfold label
  rw [toString_toList, Nat.ofDigitChars_ten_toDigits]

theorem toString_inj {i j : Nat} (h : toString i = toString j) : i = j := by
  rw [← label_toString i, h, label_toString]

theorem decimal_toString {i : Nat} (h : i < 2 ^ 64) : Decimal (toString i).toList i := by
  refine ⟨(toString i).toList, .inl rfl, ?_, ?_, ?_, h⟩
  · rw [toString_toList]; exact Nat.toDigits_ne_nil
  · rw [toString_toList]; exact Routing.StaticRouting.toDigits_digit i
  · rw [toString_toList, Nat.ofDigitChars_ten_toDigits]

theorem parseUsize_toString {i : Nat} (h : i < 2 ^ 64) : parseUsize (toString i).toList = some i :=
  (parseUsize_iff _ _).mpr (decimal_toString h)

theorem takeWhile_text {text rest : List Char} (h : ':' ∉ text) (hr : rest = [] ∨ rest.head? = some ':') :
    (text ++ rest).takeWhile (· ≠ ':') = text := by
  have h1 : ∀ c ∈ text, decide (c ≠ ':') = true := by
    intro c hc
    simp only [ne_eq, decide_not, Bool.not_eq_eq_eq_not, Bool.not_true, decide_eq_false_iff_not]
    intro e; rw [e] at hc; exact h hc
  rw [List.takeWhile_append_of_pos h1]
  rcases hr with rfl | hr
  · simp
  · cases rest with
    | nil => cases hr
    | cons c rest =>
      simp only [List.head?_cons, Option.some.injEq] at hr
      simp [hr]

theorem target_iff (dst : String) (j : Nat) : target dst = some j ↔ Leads dst j := by
  unfold target
  rw [parseUsize_iff]
  constructor
  · intro h
    refine ⟨dst.toList.takeWhile (· ≠ ':'), dst.toList.dropWhile (· ≠ ':'), (List.takeWhile_append_dropWhile).symm, ?_, ?_, h⟩
    · cases hd : dst.toList.dropWhile (· ≠ ':') with
      | nil => exact .inl rfl
      | cons c rest =>
        right
        have := List.head?_dropWhile_not (fun c => decide (c ≠ ':')) dst.toList
        rw [hd] at this
        simpa using this
    · intro hm
      have := List.all_eq_true.mp (List.all_takeWhile (p := fun c => decide (c ≠ ':')) (l := dst.toList)) _ hm
      simp at this
  · rintro ⟨text, rest, h1, h2, h3, h4⟩
    rw [h1, takeWhile_text h3 h2]
    exact h4

/-! ## The clients -/

/-- The packets in a list of commands. -/
def sends (q : List (ModuleClient.Command EclaPacket)) : List EclaPacket :=
  q.filterMap fun c => match c with | .send p => some p | .close => none

@[simp] theorem sends_nil : sends [] = [] := rfl
@[simp] theorem sends_cons (p q) : sends (.send p :: q) = p :: sends q := rfl
theorem sends_append (q r) : sends (q ++ r) = sends q ++ sends r := List.filterMap_append ..

/-- What the client has taken over so far. -/
def drawn (u : ModuleClient.State EclaPacket) : List EclaPacket := (u.taken.map fun t => t.2.1) ++ sends u.queue

/-- Everything for a client. -/
def Site.held (s : Site) : List EclaPacket := drawn s.client ++ s.inbox

def isReg : EclaPacket → Bool
  | .register .. => true
  | _ => false

/-- What holds for every client. -/
structure ClientInv (s : Site) : Prop where
  held : s.client.holder ≠ .nobody
  open' : ∀ c ∈ s.client.queue, c ≠ .close
  fresh : s.client.holder = .client → s.client.taken = []
  over : s.client.results ≠ [] → ∀ c, s.client.phase ≠ .connected c
  regs : (drawn s.client).countP isReg = if s.client.holder = .client then 0 else 1
  reg : ∀ p ∈ drawn s.client, isReg p = true → p = .register "ConnectN" true none
  conn : (∀ c, s.client.phase = .connected c → s.client.holder = .client)
  link : s.link = none → s.client.phase = .idle ∧ s.client.holder = .client ∧ s.client.passed = [] ∧ s.down = 0 ∧ s.up = 0
  inbox : ∀ p ∈ s.inbox, isReg p = false

/-- The client never connected; its task has ended. -/
def Site.gone (s : Site) : Prop := s.client.results ≠ [] ∧ s.client.holder = .client

/-- Effect of the steps that are up to the client alone. -/
theorem client_step {i : Nat} {s : Site} {e : ModuleClient.Ev EclaPacket} {u : ModuleClient.State EclaPacket} (I : ClientInv s) (ha : alone e = true)
    (h : ModuleClient.step (kind i) s.client e = some u) : ClientInv { s with client := u } ∧ u.passed = s.client.passed ∧
      (∀ F : EclaPacket → Bool, F (.register "ConnectN" true none) = false → (drawn u).filter F = (drawn s.client).filter F) ∧
      (s.gone → Site.gone { s with client := u }) ∧
      ((∃ l, e = .write l) ∨ u.taken = s.client.taken) := by
  have hreturn : ∀ c, s.client.phase = .serving c → ClientInv { s with client := s.client.return } := by
    intro c hc
    refine ⟨I.held, I.open', I.fresh, by simp [ModuleClient.State.return], I.regs, I.reg, by simp [ModuleClient.State.return], ?_, I.inbox⟩
    intro hl
    have := (I.link hl).1
    rw [this] at hc
    cases hc
  have hreg : (kind i).registration = some (.register "ConnectN" true none) := rfl
  cases e with
  | command _ => cases ha
  | serve _ => cases ha
  | message _ => cases ha
  | begin =>
    simp only [ModuleClient.step] at h
    split at h
    · rename_i c hc
      rw [hreg] at h
      simp only at h
      split at h
      · rename_i hn; exact absurd hn I.held
      · split at h
        · cases h
          have hh := I.conn c hc
          have hd : drawn (({ s.client with queue := s.client.queue ++ [.send (.register "ConnectN" true none)] } : ModuleClient.State EclaPacket).start c) =
              drawn s.client ++ [.register "ConnectN" true none] := by
            simp only [drawn, ModuleClient.State.start, sends_append, List.append_assoc]
            rfl
          refine ⟨⟨by simp [ModuleClient.State.start, hh], ?_, by simp [ModuleClient.State.start, hh], ?_, ?_, ?_, ?_, ?_, I.inbox⟩, rfl, ?_, ?_, .inr rfl⟩
          · intro x hx
            simp only [ModuleClient.State.start, List.mem_append, List.mem_singleton] at hx
            rcases hx with hx | rfl
            · exact I.open' x hx
            · simp
          · intro hr; exact absurd hc (I.over hr c)
          · dsimp only
            rw [hd, List.countP_append, I.regs, if_pos hh]
            simp [ModuleClient.State.start, hh, isReg]
          · intro p hp hpr
            dsimp only at hp
            rw [hd, List.mem_append, List.mem_singleton] at hp
            rcases hp with hp | rfl
            · exact I.reg p hp hpr
            · rfl
          · intro c' hc'; simp [ModuleClient.State.start] at hc'
          · intro hl; rw [(I.link hl).1] at hc; cases hc
          · intro F hF
            rw [hd, List.filter_append]
            simp [hF]
          · rintro ⟨g, -⟩; exact absurd hc (I.over g c)
        · cases h
    · cases h
  | write ok =>
    simp only [ModuleClient.step] at h
    split at h
    · rename_i c p q hh hq
      cases h
      have hd : drawn ({ s.client with queue := q, taken := s.client.taken ++ [(c, p, ok)] }) = drawn s.client := by
        simp [drawn, hq]
      refine ⟨⟨I.held, ?_, ?_, I.over, ?_, ?_, I.conn, ?_, I.inbox⟩, rfl, ?_, ?_, .inl ⟨ok, rfl⟩⟩
      · intro x hx; exact I.open' x (by rw [hq]; exact List.mem_cons_of_mem _ hx)
      · intro hc; dsimp only at hc; rw [hh] at hc; cases hc
      · dsimp only; rw [hd]; exact I.regs
      · dsimp only; rw [hd]; exact I.reg
      · intro hl; have := (I.link hl).2.1; rw [hh] at this; cases this
      · intro F _; rw [hd]
      · rintro ⟨g, g'⟩; rw [hh] at g'; cases g'
    · rename_i hq
      exact absurd rfl (I.open' .close (by rw [hq]; simp))
    · cases h
  | lost =>
    simp only [ModuleClient.step] at h
    split at h
    · rename_i c hc
      cases h
      exact ⟨hreturn c hc, rfl, fun _ _ => rfl, fun g => ⟨by simp [ModuleClient.State.return], g.2⟩, .inr rfl⟩
    · cases h
  | finish =>
    simp only [ModuleClient.step] at h
    split at h
    · rename_i c hc
      split at h
      · cases h
      · cases h
        exact ⟨hreturn c hc, rfl, fun _ _ => rfl, fun g => ⟨by simp [ModuleClient.State.return], g.2⟩, .inr rfl⟩
    · cases h

/-- Effect of a command. -/
theorem command_step {i : Nat} {s : Site} {p : EclaPacket} {inbox : List EclaPacket} {u : ModuleClient.State EclaPacket} (I : ClientInv s)
    (hp : s.inbox = p :: inbox) (h : ModuleClient.step (kind i) s.client (.command (.send p)) = some u) :
    ClientInv { s with client := u, inbox } ∧ u.passed = s.client.passed ∧ Site.held { s with client := u, inbox } = s.held ∧
      u.results = s.client.results ∧ u.holder = s.client.holder ∧ u.taken = s.client.taken := by
  have hpr : isReg p = false := I.inbox p (by rw [hp]; simp)
  simp only [ModuleClient.step, if_neg I.held] at h
  split at h
  · cases h
    have hd : drawn ({ s.client with queue := s.client.queue ++ [.send p] }) = drawn s.client ++ [p] := by
      simp only [drawn, sends_append, List.append_assoc]
      rfl
    refine ⟨⟨I.held, ?_, I.fresh, I.over, ?_, ?_, I.conn, I.link, ?_⟩, rfl, ?_, rfl, rfl, rfl⟩
    · intro x hx
      simp only [List.mem_append, List.mem_singleton] at hx
      rcases hx with hx | rfl
      · exact I.open' x hx
      · simp
    · dsimp only
      rw [hd, List.countP_append, I.regs]
      simp [hpr]
    · intro x hx hxr
      dsimp only at hx
      rw [hd, List.mem_append, List.mem_singleton] at hx
      rcases hx with hx | rfl
      · exact I.reg x hx hxr
      · rw [hpr] at hxr; cases hxr
    · intro x hx; exact I.inbox x (by rw [hp]; exact List.mem_cons_of_mem _ hx)
    · unfold Site.held
      dsimp only
      rw [hd, hp]
      simp
  · cases h

/-- What a client passes on for a packet of its node. -/
def relayed (i : Nat) (p : EclaPacket) : List EclaPacket :=
  match (kind i).relay p with
  | .pass p => [p]
  | _ => []

/-- Effect of a message. -/
theorem message_step {i : Nat} {s : Site} {p : EclaPacket} {u : ModuleClient.State EclaPacket} (I : ClientInv s)
    (h : ModuleClient.step (kind i) s.client (.message (.text (some p))) = some u) :
    s.link ≠ none ∧ (∀ k, ClientInv { s with client := u, down := k }) ∧ drawn u = drawn s.client ∧ u.results = s.client.results ∧
      u.holder = s.client.holder ∧ u.taken = s.client.taken ∧ u.passed = s.client.passed ++ relayed i p := by
  simp only [ModuleClient.step] at h
  split at h
  · rename_i c hc
    cases h
    have hl : s.link ≠ none := by
      intro hl
      rw [(I.link hl).1] at hc
      cases hc
    refine ⟨hl, ?_⟩
    unfold ModuleClient.State.receive
    split
    · rename_i hh
      exact ⟨fun k => ⟨I.held, I.open', I.fresh, I.over, I.regs, I.reg, I.conn, fun h => absurd h hl, I.inbox⟩, rfl, rfl, rfl, rfl, by simp [relayed, hh]⟩
    · rename_i hh
      exact ⟨fun k => ⟨I.held, I.open', I.fresh, I.over, I.regs, I.reg, I.conn, fun h => absurd h hl, I.inbox⟩, rfl, rfl, rfl, rfl, by simp [relayed, hh]⟩
    · rename_i hh
      exact ⟨fun k => ⟨I.held, I.open', I.fresh, I.over, I.regs, I.reg, I.conn, fun h => absurd h hl, I.inbox⟩, rfl, rfl, rfl, rfl, by simp [relayed, hh]⟩
  · cases h

/-- Effect of connecting. -/
theorem serve_step {i : Nat} {s : Site} {ok : Bool} {u : ModuleClient.State EclaPacket} (I : ClientInv s) (hl : s.link = none)
    (hr : s.client.results = []) (h : ModuleClient.step (kind i) s.client (.serve ok) = some u) :
    drawn u = drawn s.client ∧ u.holder = s.client.holder ∧ u.passed = s.client.passed ∧ u.taken = s.client.taken ∧
      (ok = false → ClientInv { s with client := u }) ∧
      (ok = true → ∀ node c, ClientInv { s with client := u, node, link := some c }) := by
  simp only [ModuleClient.step, if_pos (I.link hl).1] at h
  split at h
  · rename_i hok
    cases h
    refine ⟨rfl, rfl, rfl, rfl, by simp [hok], fun _ node c => ?_⟩
    exact ⟨I.held, I.open', I.fresh, fun h => absurd hr h, I.regs, I.reg, fun _ _ => (I.link hl).2.1, by simp, I.inbox⟩
  · rename_i hok
    cases h
    refine ⟨rfl, rfl, rfl, rfl, fun _ => ?_, by simp [hok]⟩
    refine ⟨I.held, I.open', I.fresh, fun _ c hc => ?_, I.regs, I.reg, I.conn, I.link, I.inbox⟩
    dsimp only at hc
    rw [(I.link hl).1] at hc
    cases hc

end Dtn.ConnectN
