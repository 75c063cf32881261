import Verif.Lemmas.WsCmd
import Verif.Lemmas.White
/-!
Properties C59, C86, C87 and C88: the web socket interface of application agents.
-/

namespace Dtn.Props
open Spec Spec.WsSpec Dtn.Ws

/-! ## C59 -/

/-- A character the node ignores around messages: white space of Unicode. -/
def Blank (c : Char) : Prop := White c

theorem blank_iff (c : Char) : Routing.StaticRouting.isBlank c = true ↔ Blank c := by
  exact isWhite_iff c

/-- C59, the language of commands: blanks around a message are ignored; the six commands are recognised, with everything
behind the first space as their argument; text that does not start with a slash is no command. -/
theorem C59_commands (l r : List Char) (hl : ∀ c ∈ l, Blank c) (hr : ∀ c ∈ r, Blank c) :
    parseCmd (String.ofList (l ++ "/node".toList ++ r)) = .node ∧
    parseCmd (String.ofList (l ++ "/bundle".toList ++ r)) = .bundle ∧
    parseCmd (String.ofList (l ++ "/data".toList ++ r)) = .data ∧
    parseCmd (String.ofList (l ++ "/json".toList ++ r)) = .json ∧
    parseCmd (String.ofList (l ++ "/subscribe".toList ++ r)) = .subscribe none ∧
    parseCmd (String.ofList (l ++ "/unsubscribe".toList ++ r)) = .unsubscribe none ∧
    (∀ a c, a.getLast? = some c → ¬ Blank c →
      parseCmd (String.ofList (l ++ ("/subscribe ".toList ++ a) ++ r)) = .subscribe (some (String.ofList a)) ∧
      parseCmd (String.ofList (l ++ ("/unsubscribe ".toList ++ a) ++ r)) = .unsubscribe (some (String.ofList a))) ∧
    (∀ m c, m.head? = some c → ¬ Blank c → c ≠ '/' → parseCmd (String.ofList (l ++ m ++ r)) = .ignored) := by
  have hl' : ∀ c ∈ l, Routing.StaticRouting.isBlank c = true := fun c h => (blank_iff c).mpr (hl c h)
  have hr' : ∀ c ∈ r, Routing.StaticRouting.isBlank c = true := fun c h => (blank_iff c).mpr (hr c h)
  have word : ∀ m : List Char, (∀ c, m.head? = some c → Routing.StaticRouting.isBlank c = false) →
      (∀ c, m.getLast? = some c → Routing.StaticRouting.isBlank c = false) → m ≠ [] → trim (l ++ m ++ r) = m :=
    fun m h1 h2 h3 => trim_pad l m r hl' hr' h1 h2 h3
  have simple : ∀ m : List Char, m.head? = some '/' → (∀ c, m.getLast? = some c → Routing.StaticRouting.isBlank c = false) →
      trim (l ++ m ++ r) = m := by
    intro m h1 h2
    refine word m (fun c hc => ?_) h2 (by rintro rfl; cases h1)
    rw [h1] at hc; cases hc; decide
  refine ⟨?_, ?_, ?_, ?_, ?_, ?_, ?_, ?_⟩
  · unfold parseCmd; rw [String.toList_ofList, simple _ rfl (by decide)]; decide
  · unfold parseCmd; rw [String.toList_ofList, simple _ rfl (by decide)]; decide
  · unfold parseCmd; rw [String.toList_ofList, simple _ rfl (by decide)]; decide
  · unfold parseCmd; rw [String.toList_ofList, simple _ rfl (by decide)]; decide
  · unfold parseCmd; rw [String.toList_ofList, simple _ rfl (by decide)]; decide
  · unfold parseCmd; rw [String.toList_ofList, simple _ rfl (by decide)]; decide
  · intro a c hc hb
    have hlast : ∀ (w : List Char) d, (w ++ a).getLast? = some d → Routing.StaticRouting.isBlank d = false := by
      intro w d hd
      rw [List.getLast?_append, hc] at hd
      simp only [Option.some_or, Option.some.injEq] at hd
      subst hd
      rw [Bool.eq_false_iff]; intro h; exact hb ((blank_iff _).mp h)
    constructor
    · unfold parseCmd
      rw [String.toList_ofList, simple _ rfl (hlast _)]
      have : split2 ("/subscribe ".toList ++ a) = ("/subscribe".toList, some a) := split2_space "/subscribe".toList a (by decide)
      have h0 : ("/subscribe ".toList ++ a).head? = some '/' := rfl
      dsimp only
      rw [if_pos h0, this]
      rfl
    · unfold parseCmd
      rw [String.toList_ofList, simple _ rfl (hlast _)]
      have : split2 ("/unsubscribe ".toList ++ a) = ("/unsubscribe".toList, some a) := split2_space "/unsubscribe".toList a (by decide)
      have h0 : ("/unsubscribe ".toList ++ a).head? = some '/' := rfl
      dsimp only
      rw [if_pos h0, this]
      rfl
  · intro m c hc hb hs
    have hbf : Routing.StaticRouting.isBlank c = false := by
      rw [Bool.eq_false_iff]; intro h; exact hb ((blank_iff _).mp h)
    unfold parseCmd
    rw [String.toList_ofList]
    have hh : (trim (l ++ m ++ r)).head? = some c := by
      unfold trim
      rw [List.append_assoc, dropWhile_blanks l (m ++ r) hl']
      · cases m with
        | nil => cases hc
        | cons d m =>
          cases hc
          have : ∀ t : List Char, ((t ++ [c]).dropWhile Routing.StaticRouting.isBlank).reverse.head? = some c := by
            intro t
            induction t with
            | nil => simp [hbf]
            | cons a t ih =>
              rw [List.cons_append, List.dropWhile_cons]
              split
              · exact ih
              · simp
          simpa using this (m ++ r).reverse
      · intro d hd
        cases m with
        | nil => cases hc
        | cons d' m => cases hc; cases hd; exact hbf
    dsimp only
    rw [hh, if_neg (by simpa using hs)]

example : parseCmd " /subscribe dtn://n/in\n" = .subscribe (some "dtn://n/in") ∧ Blank '\n' := by
  refine ⟨by decide +kernel, by unfold Blank; decide⟩

/-- C59: the session of a client is handed a bundle only when a bundle arrives for an endpoint the client is subscribed to, and
then it is that bundle. -/
theorem C59_only_subscribed (x : Ext) (host : EID) (store : MemStore) (evs : List Ev) (ev : Ev) (i : Nat)
    (h : handedTo (run x host (Ws.init store) (evs ++ [ev])) i ≠ handedTo (run x host (Ws.init store) evs) i) :
    ∃ e b, ev = .deliver e b ∧ subscribed x host i e evs.reverse = true ∧ connected i evs.reverse = true ∧
      handedTo (run x host (Ws.init store) (evs ++ [ev])) i = handedTo (run x host (Ws.init store) evs) i ++ [b] := by
  have t := Track.run x host store evs
  rw [Ws.run_snoc] at h ⊢
  generalize Ws.run x host (Ws.init store) evs = H at *
  have talk : ∀ {H'}, Talk H H' → handedTo H' i = handedTo H i := fun tk => by unfold handedTo; rw [tk.pushed]
  cases ev with
  | deliver e b =>
    simp only [Ws.step] at h ⊢
    unfold deliver at h ⊢
    cases hf : Registry.find H.apps.agents e with
    | none => rw [hf] at h; exact absurd rfl h
    | some a =>
      rw [hf] at h
      dsimp only at h ⊢
      cases hp : (a.push b (roomFor H a)).2 with
      | none =>
        rw [hp] at h
        refine absurd ?_ h
        unfold handedTo; simp only [Apps.step, hf, hp]
      | some ch =>
        rw [hp] at h
        dsimp only at h ⊢
        have hd : a.delivery = some ch := by
          unfold AppAgent.push at hp
          split at hp
          · rename_i c hc
            split at hp
            · cases hp
            · cases hp; exact hc
          · cases hp
        have hpu : handedTo (({ H with apps := H.apps.step (.deliver e b (roomFor H a)) } : Hub).upd ch fun s => { s with chan := s.chan ++ [b] }) i =
            handedTo H i ++ if ch = i then [b] else [] := by
          unfold handedTo Hub.upd
          simp only [Apps.step, hf, hp]
          rw [List.filter_append, List.map_append]
          congr 1
          by_cases hk : ch = i <;> simp [hk]
        rw [hpu] at h ⊢
        by_cases hi : ch = i
        · subst hi
          have hD : D H.apps e = some ch := by unfold D; rw [hf]; exact hd
          have hs := t.deliv e ch hD
          exact ⟨e, b, rfl, hs, connected_of_subscribed hs, by simp⟩
        · exact absurd (by simp [hi]) h
  | connect => exact absurd rfl h
  | text k msg =>
    refine absurd ?_ h
    simp only [Ws.step]
    rcases live_eq H k (fun s => handleText x host H k s msg) with ⟨s, _, _, he⟩ | ⟨_, he⟩
    · rw [he]; exact talk (talk_text _ _ _ _ _ _)
    · rw [he]
  | binary k bin =>
    refine absurd ?_ h
    simp only [Ws.step]
    rcases live_eq H k (fun s => handleBinary x H k s bin) with ⟨s, _, _, he⟩ | ⟨_, he⟩
    · rw [he]; exact talk (talk_binary _ _ _ _ _)
    · rw [he]
  | ping k m =>
    refine absurd ?_ h
    simp only [Ws.step]
    rcases live_eq H k (fun _ => H.upd k fun s => s.say (.ping m)) with ⟨s, _, _, he⟩ | ⟨_, he⟩
    · rw [he]; rfl
    · rw [he]
  | pump k =>
    refine absurd ?_ h
    simp only [Ws.step]
    rcases live_eq H k (fun s => pump x H k s) with ⟨s, _, _, he⟩ | ⟨_, he⟩
    · rw [he]; unfold pump; split <;> rfl
    · rw [he]
  | ended k =>
    refine absurd ?_ h
    simp only [Ws.step]
    rcases live_eq H k (fun s => endSession H k s) with ⟨s, _, _, he⟩ | ⟨_, he⟩
    · rw [he]
      obtain ⟨-, -, -, c4⟩ := clear_foldl (s.endpoints.getD []) H
      unfold handedTo endSession; dsimp only [Hub.upd]; rw [c4]
    · rw [he]
  | register e => exact absurd rfl h
  | unregister e => exact absurd rfl h
  | pop e => exact absurd (talk (talk_apps _ _ (pushed_pop _ _))) h

/-- C59, the part that holds: a client that subscribed to an endpoint is handed every bundle that arrives for it, as long as no
other client has named the endpoint in a subscription or unsubscription, the endpoint has not been unregistered, and there is
room in the session's channel. Missing: the other cases, see the violations below. -/
theorem C59_subscriber_receives_partial (x : Ext) (host : EID) (store : MemStore) (evs : List Ev) (i : Nat) (e : EID) (b : Bundle)
    (hsole : ∀ ev ∈ evs, ¬ meddles x host i e ev) (hsub : subscribed x host i e evs.reverse = true)
    (hroom : (pending (run x host (Ws.init store) evs) i).length < 32) :
    pending (run x host (Ws.init store) (evs ++ [.deliver e b])) i = pending (run x host (Ws.init store) evs) i ++ [b] ∧
    handedTo (run x host (Ws.init store) (evs ++ [.deliver e b])) i = handedTo (run x host (Ws.init store) evs) i ++ [b] := by
  have t := Track.run x host store evs
  have hD := sole_deliv i e store evs hsole hsub
  rw [Ws.run_snoc]
  generalize Ws.run x host (Ws.init store) evs = H at *
  obtain ⟨s, hs, ha, _⟩ := sess_of_connected t (connected_of_subscribed hsub)
  simp only [Ws.step]
  unfold deliver
  unfold D at hD
  cases hf : Registry.find H.apps.agents e with
  | none => rw [hf] at hD; cases hD
  | some a =>
    rw [hf] at hD
    simp only [Option.bind_some] at hD
    dsimp only
    have hr : roomFor H a = true := by
      unfold roomFor roomIn
      rw [hD]; dsimp only
      rw [hs]
      simp only [pending, hs, Option.map_some, Option.getD_some] at hroom
      simp [ha, capacity, hroom]
    have hp : (a.push b (roomFor H a)).2 = some i := by
      unfold AppAgent.push; rw [hD, hr]; rfl
    rw [hp]
    dsimp only
    constructor
    · unfold pending
      rw [upd_mk hs]
      simp [hs]
    · unfold handedTo Hub.upd
      simp only [Apps.step, hf, hp]
      rw [List.filter_append, List.map_append]
      simp

/-- C59: the end of a connection releases all subscriptions: no endpoint hands bundles to a client that is not connected. -/
theorem C59_end_releases (x : Ext) (host : EID) (store : MemStore) (evs : List Ev) (i : Nat) (e : EID)
    (hc : connected i evs.reverse = false) : deliveredTo (run x host (Ws.init store) evs) e ≠ some i := by
  intro h
  rw [D_eq] at h
  have := connected_of_subscribed ((Track.run x host store evs).deliv e i h)
  rw [hc] at this; cases this

/-- C59: in the session of a connected client the next bundle is sent in the mode the client chose last. -/
theorem C59_mode (x : Ext) (host : EID) (store : MemStore) (evs : List Ev) (i : Nat) (b : Bundle) (rest : List Bundle)
    (hc : connected i evs.reverse = true) (hp : pending (run x host (Ws.init store) evs) i = b :: rest) :
    outbox (run x host (Ws.init store) (evs ++ [.pump i])) i =
      outbox (run x host (Ws.init store) evs) i ++ shown x (chosen i evs.reverse) b ∧
    pending (run x host (Ws.init store) (evs ++ [.pump i])) i = rest := by
  have t := Track.run x host store evs
  rw [Ws.run_snoc]
  generalize Ws.run x host (Ws.init store) evs = H at *
  obtain ⟨s, hs, ha, hm⟩ := sess_of_connected t hc
  simp only [pending, hs, Option.map_some, Option.getD_some] at hp
  simp only [Ws.step, Hub.live, hs, ha, if_true, pump, hp]
  constructor
  · unfold outbox
    rw [upd_self hs, hs]
    simp [present_eq, hm]
  · unfold pending
    rw [upd_self hs]
    rfl

/-- C59: a subscription is answered with success exactly if the endpoint meant is registered; then the bundles for it go to this
client from now on. Otherwise the client is told if no endpoint is registered that it names, or if it names none, and nothing else
changes. -/
theorem C59_subscribe_answer (x : Ext) (host : EID) (store : MemStore) (evs : List Ev) (i : Nat) (msg : String)
    (arg : Option String) (hc : connected i evs.reverse = true) (hm : parseCmd msg = .subscribe arg) :
    let h := run x host (Ws.init store) evs
    let h' := run x host (Ws.init store) (evs ++ [.text i msg])
    (∃ e, meant x host arg = some e ∧ registered e evs.reverse = true ∧ deliveredTo h' e = some i ∧
      ∃ more, outbox h' i = outbox h i ++ .text "200 subscribed" :: more) ∨
    ((∀ e, meant x host arg = some e → registered e evs.reverse = false) ∧ h'.apps = h.apps ∧
      ∃ r, outbox h' i = outbox h i ++ [.text r] ∧ if meant x host arg = none then ∃ why, r = "400 " ++ why else r = "404 unknown endpoint") := by
  have t := Track.run x host store evs
  dsimp only
  rw [Ws.run_snoc]
  generalize Ws.run x host (Ws.init store) evs = H at *
  obtain ⟨s, hs, ha, _⟩ := sess_of_connected t hc
  have hst : Ws.step x host H (.text i msg) = subscribe x host H i arg := by
    simp only [Ws.step, Hub.live, hs, ha, if_true, handleText, hm]
  rw [hst]
  have say : ∀ r, outbox (H.upd i fun s => s.say (.text r)) i = outbox H i ++ [.text r] := by
    intro r; unfold outbox; rw [upd_self hs, hs]; rfl
  have bad : ∀ e, e ∉ Registry.eids H.apps.agents → registered e evs.reverse = false := by
    intro e he; rw [Bool.eq_false_iff]; exact fun h => he ((t.reg e).mpr h)
  have sub : ∀ e, outbox (subscribeTo i e H) i = outbox H i ++ [.text "200 subscribed"] := by
    intro e; unfold outbox subscribeTo; rw [upd_mk hs, hs]; rfl
  have fet : ∀ H' : Hub, ∃ o, outbox (fetchNew x i H') i = outbox H' i ++ o := by
    intro H'
    have tk := talk_fetchNew x i H'
    unfold outbox
    cases hx : (fetchNew x i H').sessions[i]? with
    | none =>
      have := List.getElem?_eq_none_iff.mp hx
      rw [tk.len] at this
      rw [List.getElem?_eq_none_iff.mpr this]; exact ⟨[], rfl⟩
    | some s' =>
      obtain ⟨s0, o, h1, _, _, _, h5⟩ := tk.sess i s' hx
      rw [h1]; exact ⟨o, h5⟩
  rcases subscribe_cases x host H i arg with ⟨e, h1, h2, h3⟩ | ⟨h1, h2⟩
  · left
    refine ⟨e, h1, (t.reg e).mp h2, by rw [D_eq, h3.d, if_pos rfl], ?_⟩
    unfold subscribe
    cases arg with
    | none => cases h1
    | some a =>
      simp only [meant] at h1
      dsimp only
      cases hp : x.parseEid a with
      | some e' =>
        rw [hp] at h1; cases h1
        dsimp only
        rw [if_pos ((Registry.has_iff _ _).mpr h2)]
        obtain ⟨o, ho⟩ := fet (subscribeTo i e H)
        rw [ho, sub]; exact ⟨o, by simp⟩
      | none =>
        rw [hp] at h1
        simp only [Option.none_or] at h1
        dsimp only
        rw [h1]
        dsimp only
        have := (Registry.find_isSome _ _).mpr h2
        rw [if_neg (by rw [Option.isNone_iff_eq_none]; intro hh; rw [hh] at this; cases this), sub]
        exact ⟨[], rfl⟩
  · right
    refine ⟨fun e he => bad e (h1 e he), ?_⟩
    unfold subscribe
    cases arg with
    | none => exact ⟨rfl, _, say _, by rw [if_pos (by rfl)]; exact ⟨"endpoint is missing", rfl⟩⟩
    | some a =>
      simp only [meant] at h1
      dsimp only
      cases hp : x.parseEid a with
      | some e' =>
        rw [hp] at h1
        dsimp only
        rw [if_neg (fun hh => h1 e' rfl ((Registry.has_iff _ _).mp hh))]
        exact ⟨rfl, _, say _, by rw [if_neg (by simp [meant, hp])]⟩
      | none =>
        rw [hp] at h1
        simp only [Option.none_or] at h1
        dsimp only
        cases hn : x.newEndpoint host a with
        | none => exact ⟨rfl, _, say _, by rw [if_pos (by simp [meant, hp, hn])]; exact ⟨"invalid endpoint combination", rfl⟩⟩
        | some e =>
          dsimp only
          have hf : Registry.find H.apps.agents e = none := by
            cases hf : Registry.find H.apps.agents e with
            | none => rfl
            | some a => exact absurd ((Registry.find_isSome _ _).mp (by rw [hf]; rfl)) (h1 e hn)
          rw [hf]
          exact ⟨rfl, _, say _, by rw [if_neg (by simp [meant, hp, hn])]⟩

/-- C59, the other commands of a connected client: each is answered as this says. Text that is no command, and `/unsubscribe` without an
endpoint, change nothing and get no answer. -/
theorem C59_answers (x : Ext) (host : EID) (store : MemStore) (evs : List Ev) (i : Nat) (msg : String) (hc : connected i evs.reverse = true) :
    let h := run x host (Ws.init store) evs
    let h' := run x host (Ws.init store) (evs ++ [.text i msg])
    let answered := fun text => outbox h' i = outbox h i ++ [.text text]
    match parseCmd msg with
    | .node => answered ("200 node: " ++ host.print) ∧ h'.apps = h.apps
    | .bundle => answered "200 tx mode: bundle" ∧ h'.apps = h.apps
    | .data => answered "200 tx mode: data" ∧ h'.apps = h.apps
    | .json => answered "200 tx mode: JSON" ∧ h'.apps = h.apps
    | .unknown text => answered ("501 unknown command: " ++ text) ∧ h'.apps = h.apps
    | .ignored => h' = h
    | .unsubscribe none => h' = h
    | .unsubscribe (some a) => match x.parseEid a with
      | none => answered "400 invalid endpoint" ∧ h'.apps = h.apps
      | some e => (hasSubscribed x host i evs → answered "200 unsubscribed" ∧ deliveredTo h' e = none) ∧
        (¬ hasSubscribed x host i evs → answered "404 endpoint not found" ∧ h'.apps = h.apps)
    | .subscribe _ => True := by
  have t := Track.run x host store evs
  have hsub := hasSubscribed_iff x host store evs
  dsimp only
  rw [Ws.run_snoc]
  generalize Ws.run x host (Ws.init store) evs = H at *
  obtain ⟨s, hs, ha, _⟩ := sess_of_connected t hc
  have hst : Ws.step x host H (.text i msg) = handleText x host H i s msg := by
    simp only [Ws.step, Hub.live, hs, ha, if_true]
  rw [hst]
  have say : ∀ (f : Session → Session) r, (∀ s, (f s).out = s.out) → outbox (H.upd i fun s => (f s).say (.text r)) i = outbox H i ++ [.text r] := by
    intro f r hf
    unfold outbox
    rw [upd_self hs, hs]
    show ((f s).say (.text r)).out = _
    simp [Session.say, hf]
  unfold handleText
  cases hm : parseCmd msg with
  | node => exact ⟨say id _ fun _ => rfl, rfl⟩
  | bundle => exact ⟨say (fun s => { s with mode := .bundle }) _ fun _ => rfl, rfl⟩
  | data => exact ⟨say (fun s => { s with mode := .data .cbor }) _ fun _ => rfl, rfl⟩
  | json => exact ⟨say (fun s => { s with mode := .data .json }) _ fun _ => rfl, rfl⟩
  | unknown text => exact ⟨say id _ fun _ => rfl, rfl⟩
  | ignored => rfl
  | subscribe _ => trivial
  | unsubscribe arg =>
    cases arg with
    | none => rfl
    | some a =>
      dsimp only
      cases hp : x.parseEid a with
      | none =>
        simp only [unsubscribe, hp]
        exact ⟨say id _ fun _ => rfl, rfl⟩
      | some e =>
        simp only [unsubscribe, hp]
        refine ⟨fun h => ?_, fun h => ?_⟩
        · rw [if_pos ((hsub i s hs ha).mp h)]
          refine ⟨?_, ?_⟩
          · unfold outbox
            rw [upd_mk hs, hs]
            rfl
          · rw [D_eq]
            exact (D_unsubscribe H.apps e e).trans (if_pos rfl)
        · rw [if_neg fun hn => h ((hsub i s hs ha).mpr hn)]
          exact ⟨say id _ fun _ => rfl, rfl⟩

/-- The functions of other crates, for examples. -/
def exWsExt : Ext where
  parseEid s := if s = "dtn://n/in" then some (.dtn "n" "in") else none
  newEndpoint _ a := if a = "in" then some (.dtn "n" "in") else none
  toCbor b := [b.primary.seqno.toUInt8]
  parseBundle _ := none
  encode _ b := [b.primary.seqno.toUInt8]
  decode _ b := if b = [1] then some { src := "nobody", dst := "dtn://n/in", lifetime := 5, notify := false, data := [7] } else none
  hasPayload b := !b.canonicals.isEmpty
  build src dst _ _ _ :=
    { primary := { bid := "x", source := src, destination := dst, reportTo := src, creationTime := 1, lifetime := 5 }
      canonicals := [] }

def exWsBundle (q : Nat) (payload : Bool) : Bundle :=
  { primary := { bid := toString q, source := .dtn "a" "", destination := .dtn "n" "in", reportTo := .dtn "a" "",
                 creationTime := 1, seqno := q, lifetime := 60000 }
    canonicals := if payload then [{ btype := 1, num := 1, data := .data [q.toUInt8] }] else [] }

def exWsHost : EID := .dtn "n" ""
def exWsIn : EID := .dtn "n" "in"

/-- A client subscribes to a registered endpoint; another one is connected. -/
def exWsSub : List Ev := [.register exWsIn, .connect, .connect, .text 0 "/subscribe dtn://n/in"]

example : (∀ ev ∈ exWsSub, ¬ meddles exWsExt exWsHost 0 exWsIn ev) ∧
    subscribed exWsExt exWsHost 0 exWsIn exWsSub.reverse = true ∧ connected 0 exWsSub.reverse = true ∧
    (pending (run exWsExt exWsHost (Ws.init MemStore.new) exWsSub) 0).length < 32 ∧
    pending (run exWsExt exWsHost (Ws.init MemStore.new) (exWsSub ++ [.deliver exWsIn (exWsBundle 1 true)])) 0 = [exWsBundle 1 true] ∧
    parseCmd "/subscribe dtn://n/in" = .subscribe (some "dtn://n/in") := by
  refine ⟨?_, by decide +kernel, by decide +kernel, by decide +kernel, by decide +kernel, by decide +kernel⟩
  intro ev h
  simp only [exWsSub, List.mem_cons, List.not_mem_nil, or_false] at h
  rcases h with rfl | rfl | rfl | rfl <;> simp [meddles]

/-- Two connected clients, of which one has subscribed. -/
example : connected 0 exWsSub.reverse = true ∧ connected 1 exWsSub.reverse = true ∧ hasSubscribed exWsExt exWsHost 0 exWsSub ∧
    ¬ hasSubscribed exWsExt exWsHost 1 exWsSub ∧ parseCmd "/unsubscribe dtn://n/in" = .unsubscribe (some "dtn://n/in") := by
  refine ⟨by decide +kernel, by decide +kernel, ⟨4, exWsIn, by decide +kernel⟩, ?_, by decide +kernel⟩
  rw [hasSubscribed_iff exWsExt exWsHost MemStore.new exWsSub 1 {} (by decide +kernel) (by decide +kernel)]
  decide +kernel

example : connected 0 (exWsSub ++ [Ev.ended 0]).reverse = false ∧
    deliveredTo (run exWsExt exWsHost (Ws.init MemStore.new) exWsSub) exWsIn = some 0 := by decide +kernel

/-- C59 is violated when two clients subscribe to one endpoint: the second one takes it over, and when the first one leaves, the
second one, still subscribed and connected, gets nothing any more. -/
theorem C59_takeover_violated : ∃ (x : Ext) (host : EID) (evs : List Ev) (e : EID) (b : Bundle),
    subscribed x host 1 e evs.reverse = true ∧ connected 1 evs.reverse = true ∧ registered e evs.reverse = true ∧
    pending (run x host (Ws.init MemStore.new) evs) 1 = [] ∧
    handedTo (run x host (Ws.init MemStore.new) (evs ++ [.deliver e b])) 1 = [] := by
  refine ⟨exWsExt, exWsHost, exWsSub ++ [.text 1 "/subscribe dtn://n/in", .ended 0], exWsIn, exWsBundle 1 true, ?_⟩
  decide +kernel

/-- C59 is violated by the unsubscription of another client, which need not be subscribed to the endpoint itself, only to some
endpoint. -/
theorem C59_foreign_unsubscribe_violated : ∃ (x : Ext) (host : EID) (evs : List Ev) (e : EID) (b : Bundle),
    subscribed x host 0 e evs.reverse = true ∧ connected 0 evs.reverse = true ∧ registered e evs.reverse = true ∧
    (∀ n ≤ evs.length, subscribed x host 1 e (evs.take n).reverse = false) ∧
    handedTo (run x host (Ws.init MemStore.new) (evs ++ [.deliver e b])) 0 = [] := by
  let x : Ext := { exWsExt with
    parseEid := fun s => if s = "dtn://n/in" then some (.dtn "n" "in") else if s = "dtn://n/b" then some (.dtn "n" "b") else none }
  refine ⟨x, exWsHost, [.register exWsIn, .register (.dtn "n" "b"), .connect, .connect, .text 0 "/subscribe dtn://n/in",
    .text 1 "/subscribe dtn://n/b", .text 1 "/unsubscribe dtn://n/in"], exWsIn, exWsBundle 1 true, by decide +kernel,
    by decide +kernel, by decide +kernel, by decide +kernel, by decide +kernel⟩

/-- C59 is violated when an endpoint is unregistered and registered again: a client that is subscribed gets nothing. -/
theorem C59_reregister_violated : ∃ (x : Ext) (host : EID) (evs : List Ev) (e : EID) (b : Bundle),
    subscribed x host 0 e evs.reverse = true ∧ connected 0 evs.reverse = true ∧ registered e evs.reverse = true ∧
    handedTo (run x host (Ws.init MemStore.new) (evs ++ [.deliver e b])) 0 = [] := by
  refine ⟨exWsExt, exWsHost, exWsSub ++ [.unregister exWsIn, .register exWsIn], exWsIn, exWsBundle 1 true, ?_⟩
  decide +kernel

/-- C59 is violated for subscriptions made with a service name: the same name cannot be used to unsubscribe. -/
theorem C59_service_unsubscribe_violated : ∃ (x : Ext) (host : EID) (evs : List Ev) (b : Bundle),
    let evs := evs ++ [.text 0 "/subscribe in", .text 0 "/unsubscribe in"]
    meant x host (some "in") = some exWsIn ∧
    handedTo (run x host (Ws.init MemStore.new) (evs ++ [.deliver exWsIn b])) 0 = [b] := by
  refine ⟨exWsExt, exWsHost, [.register exWsIn, .connect], exWsBundle 1 true, ?_⟩
  decide +kernel

/-! ## C86 -/

/-- C86: as long as a client is connected, the bundles handed to its session are, in order, those it has been sent a message for
(in the mode of that moment; no message in the data modes for a bundle without payload), followed by those still pending. -/
theorem C86_in_order (x : Ext) (host : EID) (store : MemStore) (evs : List Ev) (i : Nat) (hc : connected i evs.reverse = true) :
    let h := run x host (Ws.init store) evs
    ∃ (done : List (Mode × Bundle)) (other : List Msg),
      handedTo h i = done.map (·.2) ++ pending h i ∧ Merge (done.flatMap fun p => shown x p.1 p.2) other (outbox h i) := by
  have t := Track.run x host store evs
  have b := Books.run x host store evs
  dsimp only
  generalize Ws.run x host (Ws.init store) evs = H at *
  obtain ⟨s, hs, ha, _⟩ := sess_of_connected t hc
  have bk := b.sess i s hs
  obtain ⟨other, hm⟩ := bk.out
  refine ⟨s.handled, other, ?_, ?_⟩
  · rw [bk.live ha]; simp [pending, hs]
  · simpa [outbox, hs] using hm

/-- C86: if the connection lasts, everything pending is sent, in order, in the mode chosen. -/
theorem C86_drained (x : Ext) (host : EID) (store : MemStore) (evs : List Ev) (i : Nat) (hc : connected i evs.reverse = true) :
    let h := run x host (Ws.init store) evs
    let h' := run x host (Ws.init store) (evs ++ List.replicate (pending h i).length (.pump i))
    outbox h' i = outbox h i ++ (pending h i).flatMap (shown x (chosen i evs.reverse)) ∧ pending h' i = [] := by
  dsimp only
  generalize hp : pending (Ws.run x host (Ws.init store) evs) i = l
  induction l generalizing evs with
  | nil => simp [hp]
  | cons b l ih =>
    obtain ⟨h1, h2⟩ := C59_mode x host store evs i b l hc hp
    have := ih (evs ++ [.pump i]) (by rw [List.reverse_append]; exact hc) h2
    have hch : chosen i (evs ++ [Ev.pump i]).reverse = chosen i evs.reverse := by rw [List.reverse_append]; rfl
    rw [hch, h1, List.append_assoc] at this
    simp only [List.length_cons, List.replicate_succ, List.flatMap_cons]
    rw [← List.append_assoc (outbox _ _)]
    exact this

example : connected 0 (exWsSub ++ [Ev.deliver exWsIn (exWsBundle 1 true), .deliver exWsIn (exWsBundle 2 true)]).reverse = true ∧
    pending (run exWsExt exWsHost (Ws.init MemStore.new)
      (exWsSub ++ [.deliver exWsIn (exWsBundle 1 true), .deliver exWsIn (exWsBundle 2 true)])) 0 = [exWsBundle 1 true, exWsBundle 2 true] := by
  decide +kernel

/-- C86 is violated at the end of a connection: a bundle handed to the session and not sent yet is neither sent nor waiting nor
stored any more. -/
theorem C86_lost_at_end_violated : ∃ (x : Ext) (host : EID) (s : MemStore) (evs : List Ev) (e : EID) (b : Bundle),
    s.hasItem b.id = true ∧
    let h := run x host (Ws.init s) (evs ++ [.deliver e b, .ended 0])
    handedTo h 0 = [b] ∧ (∀ m ∈ shown x (chosen 0 evs.reverse) b, m ∉ outbox h 0) ∧ shown x (chosen 0 evs.reverse) b ≠ [] ∧
    waitingAt h e = [] ∧ h.apps.store.hasItem b.id = false := by
  refine ⟨exWsExt, exWsHost, MemStore.new.push 5 (exWsBundle 1 true), exWsSub, exWsIn, exWsBundle 1 true, ?_⟩
  decide +kernel

/-- C86 is violated in the data modes for a bundle without payload: it is taken from the store, and the client hears nothing. -/
theorem C86_no_payload_violated : ∃ (x : Ext) (host : EID) (s : MemStore) (evs : List Ev) (e : EID) (b : Bundle),
    s.hasItem b.id = true ∧
    let h := run x host (Ws.init s) evs
    let h' := run x host (Ws.init s) (evs ++ [.deliver e b, .pump 0])
    connected 0 evs.reverse = true ∧ handedTo h' 0 = [b] ∧ pending h' 0 = [] ∧ outbox h' 0 = outbox h 0 ∧
    waitingAt h' e = [] ∧ h'.apps.store.hasItem b.id = false := by
  refine ⟨exWsExt, exWsHost, MemStore.new.push 5 (exWsBundle 1 false), exWsSub, exWsIn, exWsBundle 1 false, ?_⟩
  decide +kernel

/-! ## C87 -/

theorem wait_eq (h : Hub) (e) : waitingAt h e = match Registry.find h.apps.agents e with
    | some a => a.queue
    | none => [] := by
  unfold waitingAt Registry.find
  congr 2; funext a; simp [eq_comm]

/-- C87, the part that holds: a client that is not subscribed to anything and subscribes to an endpoint by its full id is sent the
bundle waiting longest there. Missing: the other waiting bundles, and subscriptions by service name. -/
theorem C87_first_sent_partial (x : Ext) (host : EID) (store : MemStore) (evs : List Ev) (i : Nat) (msg a : String) (e : EID)
    (b : Bundle) (rest : List Bundle) (hc : connected i evs.reverse = true) (hm : parseCmd msg = .subscribe (some a))
    (ha : x.parseEid a = some e) (hw : waitingAt (run x host (Ws.init store) evs) e = b :: rest)
    (hno : ∀ e', subscribed x host i e' evs.reverse = false) :
    let h := run x host (Ws.init store) evs
    let h' := run x host (Ws.init store) (evs ++ [.text i msg])
    outbox h' i = outbox h i ++ .text "200 subscribed" :: shown x (chosen i evs.reverse) b ∧ waitingAt h' e = rest := by
  have t := Track.run x host store evs
  dsimp only
  rw [Ws.run_snoc]
  generalize Ws.run x host (Ws.init store) evs = H at *
  obtain ⟨s, hs, hal, hmo⟩ := sess_of_connected t hc
  have hem : s.endpoints.getD [] = [] := by
    rw [List.eq_nil_iff_forall_not_mem]
    intro e' hin
    have := (((t.sess i _ (V_get hs)).2 hal).2 e').mp hin
    rw [hno e'] at this; cases this
  rw [wait_eq] at hw
  cases hf : Registry.find H.apps.agents e with
  | none => rw [hf] at hw; cases hw
  | some ag =>
    rw [hf] at hw
    dsimp only at hw
    have hreg : Registry.has H.apps.agents e = true := by
      rw [Registry.has_iff, ← Registry.find_isSome, hf]; rfl
    have hst : Ws.step x host H (.text i msg) = fetchNew x i (subscribeTo i e H) := by
      simp only [Ws.step, Hub.live, hs, hal, if_true, handleText, hm, subscribe, ha, hreg]
    rw [hst]
    have hs1 : (subscribeTo i e H).sessions[i]? = some ((s.addEndpoint e).say (.text "200 subscribed")) := by
      unfold subscribeTo; exact upd_self (s := s) hs
    have hf1 : Registry.find (subscribeTo i e H).apps.agents e = some (ag.setDelivery i) := by
      unfold subscribeTo Hub.upd
      simp only [Apps.step]
      rw [Registry.find_modify _ _ _ _ (fun a => AppAgent.eid_set a i), if_pos rfl, hf]; rfl
    have hpop : (ag.setDelivery i).pop.2 = some b := by
      unfold AppAgent.pop AppAgent.setDelivery; rw [hw]
    have hq : (ag.setDelivery i).pop.1.queue = rest := by
      unfold AppAgent.pop AppAgent.setDelivery; rw [hw]
    have hep : ((s.addEndpoint e).say (.text "200 subscribed")).endpoints.getD [] = [e] := by
      unfold Session.say Session.addEndpoint
      simp only [hem, List.not_mem_nil, if_false, List.nil_append, Option.getD_some]
    unfold fetchNew
    rw [hs1]
    dsimp only
    rw [hep, List.foldl_cons, List.foldl_nil]
    unfold fetchOne
    rw [hf1]
    dsimp only
    rw [hpop]
    dsimp only
    constructor
    · unfold outbox
      rw [upd_mk hs1, hs]
      simp only [Option.map_some, Option.getD_some, Session.say, Session.addEndpoint, present_eq, ← hmo, List.append_assoc]
      rfl
    · rw [wait_eq]
      have hag : (({ subscribeTo i e H with apps := (subscribeTo i e H).apps.step (.pop e) } : Hub).upd i fun s_1 =>
          { s_1 with out := s_1.out ++ present x ((s.addEndpoint e).say (.text "200 subscribed")).mode b }).apps.agents =
          Registry.modify (fun a => a.pop.1) e (subscribeTo i e H).apps.agents := by
        unfold Hub.upd
        simp only [Apps.step, hf1, hpop]
      rw [hag, Registry.find_modify _ _ _ _ (fun a => AppAgent.eid_pop a), if_pos rfl, hf1]
      exact hq

/-- Two bundles wait at an endpoint, and a client connects. -/
def exWsWait : List Ev :=
  [.register exWsIn, .deliver exWsIn (exWsBundle 1 true), .deliver exWsIn (exWsBundle 2 true), .connect]

example : connected 0 exWsWait.reverse = true ∧
    waitingAt (run exWsExt exWsHost (Ws.init MemStore.new) exWsWait) exWsIn = [exWsBundle 1 true, exWsBundle 2 true] := by
  decide +kernel

/-- What waits at an endpoint stays there, in front, whatever arrives and whatever is sent on web sockets, until it is fetched
over HTTP, a client sends a text message, or the endpoint is unregistered. -/
theorem C87_waits (x : Ext) (host : EID) (h : Hub) (e : EID) (evs : List Ev)
    (hev : ∀ ev ∈ evs, ev ≠ .pop e ∧ ev ≠ .unregister e ∧ ∀ i msg, ev ≠ .text i msg) :
    waitingAt h e <+: waitingAt (run x host h evs) e := by
  induction evs using List.reverseRecOn with
  | nil => exact List.prefix_rfl
  | append_singleton evs ev ih =>
    refine (ih fun ev h => hev ev (List.mem_append.mpr (Or.inl h))).trans ?_
    obtain ⟨h1, h2, h3⟩ := hev ev (by simp)
    rw [Ws.run_snoc]
    generalize Ws.run x host h evs = H
    have same : ∀ {H' : Hub}, (match Registry.find H'.apps.agents e with | some a => a.queue | none => []) =
        (match Registry.find H.apps.agents e with | some a => a.queue | none => []) → waitingAt H e <+: waitingAt H' e := by
      intro H' hh; rw [wait_eq, wait_eq, hh]; exact List.prefix_rfl
    cases ev with
    | text i msg => exact absurd rfl (h3 i msg)
    | connect => exact same rfl
    | binary i bin =>
      simp only [Ws.step]
      rcases live_eq H i (fun s => handleBinary x H i s bin) with ⟨s, _, _, he⟩ | ⟨_, he⟩
      · rw [he]
        have : (handleBinary x H i s bin).apps = H.apps := by
          unfold handleBinary
          split
          · split <;> rfl
          · split
            · split <;> rfl
            · rfl
        exact same (by rw [this])
      · rw [he]; exact List.prefix_rfl
    | ping i m =>
      simp only [Ws.step]
      rcases live_eq H i (fun _ => H.upd i fun s => s.say (.ping m)) with ⟨s, _, _, he⟩ | ⟨_, he⟩
      · rw [he]; exact same rfl
      · rw [he]; exact List.prefix_rfl
    | pump i =>
      simp only [Ws.step]
      rcases live_eq H i (fun s => pump x H i s) with ⟨s, _, _, he⟩ | ⟨_, he⟩
      · rw [he]
        have : (pump x H i s).apps = H.apps := by unfold pump; split <;> rfl
        exact same (by rw [this])
      · rw [he]; exact List.prefix_rfl
    | ended i =>
      simp only [Ws.step]
      rcases live_eq H i (fun s => endSession H i s) with ⟨s, hs0, _, he⟩ | ⟨_, he⟩
      · rw [he]
        refine same ?_
        unfold endSession Hub.upd
        dsimp only
        generalize s.endpoints.getD [] = l
        clear he same hs0
        induction l generalizing H with
        | nil => rfl
        | cons e' l ihl =>
          rw [List.foldl_cons, ihl]
          simp only [Apps.step]
          rw [Registry.find_modify _ _ _ _ (fun a => AppAgent.eid_clear a)]
          by_cases he' : e = e'
          · subst he'
            rw [if_pos rfl]
            cases Registry.find H.apps.agents e <;> rfl
          · rw [if_neg he']
      · rw [he]; exact List.prefix_rfl
    | register e' =>
      refine same ?_
      simp only [Ws.step, Apps.step]
      rw [Registry.find_register]
      by_cases hh : e = (AppAgent.with e').eid ∧ Registry.find H.apps.agents e = none
      · rw [if_pos hh, hh.2]; rfl
      · rw [if_neg hh]
    | unregister e' =>
      refine same ?_
      simp only [Ws.step, Apps.step]
      rw [Registry.find_unregister_ne _ (fun hh => h2 (by rw [hh]))]
    | pop e' =>
      have hne : ¬ e = e' := fun hh => h1 (by rw [hh])
      have : Registry.find (H.apps.step (.pop e')).agents e = Registry.find H.apps.agents e := by
        simp only [Apps.step]
        split
        · rfl
        · split <;> (dsimp only; rw [Registry.find_modify _ _ _ _ (fun a => AppAgent.eid_pop a), if_neg hne])
      refine same ?_
      simp only [Ws.step]
      rw [this]
    | deliver e' b =>
      simp only [Ws.step]
      have hag : (deliver H e' b).apps.agents = H.apps.agents ∨
          ∃ room, (deliver H e' b).apps.agents = Registry.modify (fun a => (a.push b room).1) e' H.apps.agents := by
        unfold deliver
        cases hf : Registry.find H.apps.agents e' with
        | none => exact Or.inl rfl
        | some a =>
          right
          dsimp only
          refine ⟨roomFor H a, ?_⟩
          cases hp : (a.push b (roomFor H a)).2 <;> simp only [Apps.step, hf, hp, Hub.upd]
      rcases hag with hag | ⟨room, hag⟩
      · exact same (by rw [hag])
      · rw [wait_eq, wait_eq, hag, Registry.find_modify _ _ _ _ (fun a => AppAgent.eid_push a b room)]
        by_cases hee : e = e'
        · subst hee
          rw [if_pos rfl]
          cases Registry.find H.apps.agents e with
          | none => exact List.prefix_rfl
          | some a =>
            dsimp only [Option.map_some]
            unfold AppAgent.push
            split
            · split
              · exact List.prefix_append _ _
              · exact List.prefix_rfl
            · exact List.prefix_append _ _
        · rw [if_neg hee]; exact List.prefix_rfl

/-- C87 is violated when more than one bundle waits: after the subscription the second one is not sent, and it never is, whatever
arrives and however long the session goes on; a bundle that arrives later overtakes it. -/
theorem C87_second_stuck_violated : ∃ (x : Ext) (host : EID) (evs : List Ev) (e : EID) (b1 b2 b3 : Bundle),
    let sub := evs ++ [.text 0 "/subscribe dtn://n/in"]
    waitingAt (run x host (Ws.init MemStore.new) evs) e = [b1, b2] ∧ subscribed x host 0 e sub.reverse = true ∧
    (∀ later : List Ev, (∀ ev ∈ later, ev ≠ .pop e ∧ ev ≠ .unregister e ∧ ∀ i msg, ev ≠ .text i msg) →
      ∃ more, waitingAt (run x host (Ws.init MemStore.new) (sub ++ later)) e = b2 :: more) ∧
    outbox (run x host (Ws.init MemStore.new) (sub ++ [.deliver e b3, .pump 0])) 0 =
      .text "200 subscribed" :: (shown x (.data .json) b1 ++ shown x (.data .json) b3) ∧ b2 ≠ b3 := by
  refine ⟨exWsExt, exWsHost, exWsWait, exWsIn, exWsBundle 1 true, exWsBundle 2 true, exWsBundle 3 true, by decide +kernel,
    by decide +kernel, ?_, by decide +kernel, by decide +kernel⟩
  intro later hl
  have h0 : waitingAt (run exWsExt exWsHost (Ws.init MemStore.new) (exWsWait ++ [.text 0 "/subscribe dtn://n/in"])) exWsIn =
      [exWsBundle 2 true] := by decide +kernel
  obtain ⟨more, hm⟩ := C87_waits exWsExt exWsHost
    (run exWsExt exWsHost (Ws.init MemStore.new) (exWsWait ++ [.text 0 "/subscribe dtn://n/in"])) exWsIn later hl
  rw [h0] at hm
  refine ⟨more, ?_⟩
  have : run exWsExt exWsHost (Ws.init MemStore.new) (exWsWait ++ [.text 0 "/subscribe dtn://n/in"] ++ later) =
      run exWsExt exWsHost (run exWsExt exWsHost (Ws.init MemStore.new) (exWsWait ++ [.text 0 "/subscribe dtn://n/in"])) later := by
    unfold Ws.run; rw [List.foldl_append]
  rw [this, ← hm]; rfl

/-- C87 is violated for a subscription by service name: nothing that waits is sent. -/
theorem C87_service_name_violated : ∃ (x : Ext) (host : EID) (evs : List Ev) (e : EID) (b1 b2 : Bundle),
    let sub := evs ++ [.text 0 "/subscribe in"]
    waitingAt (run x host (Ws.init MemStore.new) evs) e = [b1, b2] ∧ subscribed x host 0 e sub.reverse = true ∧
    waitingAt (run x host (Ws.init MemStore.new) sub) e = [b1, b2] := by
  refine ⟨exWsExt, exWsHost, exWsWait, exWsIn, exWsBundle 1 true, exWsBundle 2 true, ?_⟩
  decide +kernel

/-! ## C88 -/

/-- What a binary message asks the node to send, in a mode. -/
def asksToSend (x : Ext) (m : Mode) (bin : Bytes) (b : Bundle) : Prop :=
  match m with
  | .bundle => x.parseBundle bin = some b
  | .data f => ∃ d src dst, x.decode f bin = some d ∧ x.parseEid d.src = some src ∧ x.parseEid d.dst = some dst ∧
      b = x.build src dst d.lifetime d.notify d.data

/-- C88: a binary message of a connected client that says what to send in the mode chosen leads to exactly that bundle being
submitted, and to one answer, of success; any other one leads to nothing being submitted, and to no answer of success. -/
theorem C88_submitted (x : Ext) (host : EID) (store : MemStore) (evs : List Ev) (i : Nat) (bin : Bytes)
    (hc : connected i evs.reverse = true) :
    let h := run x host (Ws.init store) evs
    let h' := run x host (Ws.init store) (evs ++ [.binary i bin])
    (∃ b, asksToSend x (chosen i evs.reverse) bin b ∧ h'.submitted = h.submitted ++ [b] ∧
      ∃ r, outbox h' i = outbox h i ++ [.text ("200 " ++ r)]) ∨
    ((∀ b, ¬ asksToSend x (chosen i evs.reverse) bin b) ∧ h'.submitted = h.submitted ∧
      (outbox h' i = outbox h i ∨ ∃ r, outbox h' i = outbox h i ++ [.text ("400 " ++ r)])) := by
  have t := Track.run x host store evs
  dsimp only
  rw [Ws.run_snoc]
  generalize Ws.run x host (Ws.init store) evs = H at *
  obtain ⟨s, hs, ha, hmo⟩ := sess_of_connected t hc
  have hst : Ws.step x host H (.binary i bin) = handleBinary x H i s bin := by
    simp only [Ws.step, Hub.live, hs, ha, if_true]
  rw [hst, ← hmo]
  unfold handleBinary
  cases hm : s.mode with
  | bundle =>
    dsimp only
    cases hp : x.parseBundle bin with
    | none =>
      refine Or.inr ⟨fun b h => by simp [asksToSend, hp] at h, rfl, Or.inr ⟨"Invalid binary bundle", ?_⟩⟩
      unfold outbox; rw [upd_self hs, hs]; rfl
    | some b =>
      refine Or.inl ⟨b, hp, rfl, "Sent payload with " ++ toString bin.length ++ " bytes", ?_⟩
      unfold outbox; rw [upd_mk hs, hs]
      have : "200 Sent payload with " = "200 " ++ "Sent payload with " := rfl
      rw [this]
      simp only [Option.map_some, Option.getD_some, Session.say, String.append_assoc]
  | data f =>
    dsimp only
    cases hp : x.decode f bin with
    | none =>
      refine Or.inr ⟨fun b h => by simp [asksToSend, hp] at h, rfl, Or.inr ⟨"Unexpected binary", ?_⟩⟩
      unfold outbox; rw [upd_self hs, hs]; rfl
    | some d =>
      dsimp only
      cases hd : x.parseEid d.dst with
      | none => exact Or.inr ⟨fun b h => by simp [asksToSend, hp, hd] at h, rfl, Or.inl rfl⟩
      | some dst =>
        cases hsr : x.parseEid d.src with
        | none => exact Or.inr ⟨fun b h => by simp [asksToSend, hp, hsr] at h, rfl, Or.inl rfl⟩
        | some src =>
          refine Or.inl ⟨_, ⟨d, src, dst, hp, hsr, hd, rfl⟩, rfl,
            "Sent bundle " ++ (x.build src dst d.lifetime d.notify d.data).id ++ " with " ++ toString d.data.length ++ " bytes", ?_⟩
          unfold outbox; rw [upd_mk hs, hs]
          have : "200 Sent bundle " = "200 " ++ "Sent bundle " := rfl
          rw [this]
          simp only [Option.map_some, Option.getD_some, Session.say, String.append_assoc]

example : asksToSend { exWsExt with parseBundle := fun _ => some (exWsBundle 1 true) } .bundle [1] (exWsBundle 1 true) := rfl

/-- C88 is violated for data with an unreadable source or destination: nothing is submitted and the client is not told. -/
theorem C88_silent_violated : ∃ (x : Ext) (host : EID) (evs : List Ev) (bin : Bytes) (d : SendData),
    connected 0 evs.reverse = true ∧ chosen 0 evs.reverse = .data .json ∧ x.decode .json bin = some d ∧
    run x host (Ws.init MemStore.new) (evs ++ [.binary 0 bin]) = run x host (Ws.init MemStore.new) evs := by
  refine ⟨exWsExt, exWsHost, [.connect], [1], _, by decide +kernel, by decide +kernel, rfl, by decide +kernel⟩

end Dtn.Props
