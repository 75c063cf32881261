import Verif.Lemmas.EchoRun

namespace Dtn.EchoPing
open Ws Spec.WsSpec Spec.EchoSpec

variable {x : Ext} {host : EID} {store : MemStore} {io : Io} {dtn : Bool} {reg : Prop} {ep : EID}

theorem bins_take {l : List Msg} {g : Nat} {m : Msg} (h : l[g]? = some m) : bins (l.take (g + 1)) = bins (l.take g) ++ bins [m] := by
  rw [List.take_add_one, h, bins_append]; rfl

theorem told_mem {evs : List Ev} {i : Nat} {s : Session} {b : Bundle} (hs : (hub x host store evs).sessions[i]? = some s)
    (hb : b ∈ told x s) : b ∈ handedTo (hub x host store evs) i ∧ x.hasPayload b = true := by
  unfold told at hb
  rw [List.mem_filter] at hb
  exact ⟨(told_books evs hs).subset hb.1, hb.2⟩

/-- Everything handed to the program can be read. -/
def AllReadable (x : Ext) (host : EID) (store : MemStore) (io : Io) (sys : System) : Prop :=
  ∀ b ∈ handedTo (hub x host store sys.evs) sys.conn, x.hasPayload b = true → Readable x io b

theorem response_flipped {b : Bundle} {bid : String} :
    response { bid, src := b.primary.source.print, dst := b.primary.destination.print, data := body b } = flipped b := rfl

/-- Reading a message that is no bundle. -/
theorem Inv.readOther {sys : System} {s : Session} {W k} {m : Msg} {ph : Phase} {up : List Up} (v : Inv x host store io dtn reg ep sys s W k)
    (hm : s.out[sys.got]? = some m) (hb : bins [m] = []) (hu : upBins up = [])
    (st : Stage x host store dtn reg ep { sys with got := sys.got + 1, phase := ph, up := sys.up ++ up } s) :
    Inv x host store io dtn reg ep { sys with got := sys.got + 1, phase := ph, up := sys.up ++ up } s W k := by
  refine ⟨v.sess, v.outs, ?_, v.le, v.all, v.gave, ?_, st⟩
  · have : readSo x { sys with got := sys.got + 1, phase := ph, up := sys.up ++ up } s = readSo x sys s := by
      unfold readSo; dsimp only; rw [bins_take hm, hb, List.append_nil]
    rw [this, ← v.sent]
    simp [upBins_append, hu]
  · have := (List.getElem?_eq_some_iff.mp hm).1
    exact this

/-- The bundle that a binary message tells of. -/
theorem Inv.tells {sys : System} {s : Session} {W k} {b : Bytes} (v : Inv x host store io dtn reg ep sys s W k)
    (hG : AllReadable x host store io sys) (hm : s.out[sys.got]? = some (.binary b)) :
    ∃ bb bid, (told x s)[(bins (s.out.take sys.got)).length]? = some bb ∧
      io.recv b = some { bid, src := bb.primary.source.print, dst := bb.primary.destination.print, data := body bb } := by
  have hidx : (told x s)[(bins (s.out.take sys.got)).length]?.map (x.encode .cbor) = some b := by
    rw [← List.getElem?_map, ← v.outs]
    conv => lhs; rw [← List.take_append_drop (sys.got + 1) s.out, bins_append, bins_take hm]
    simp [bins]
  cases hbb : (told x s)[(bins (s.out.take sys.got)).length]? with
  | none => rw [hbb] at hidx; cases hidx
  | some bb =>
    rw [hbb] at hidx
    simp only [Option.map_some, Option.some.injEq] at hidx
    obtain ⟨i1, i2⟩ := told_mem v.sess (List.mem_of_getElem? hbb)
    obtain ⟨bid, hrec⟩ := (hG bb i1 i2).data
    rw [hidx] at hrec
    exact ⟨bb, bid, rfl, hrec⟩

theorem Inv.read {sys sys' : System} {s : Session} {W k} (v : Inv x host store io dtn reg ep sys s W k)
    (hG : AllReadable x host store io sys)
    (h : sys.step x host store io (service dtn) .read = some sys') : Inv x host store io dtn reg ep sys' s W k ∧ sys'.evs = sys.evs ∧ sys'.conn = sys.conn := by
  simp only [System.step, v.sess] at h
  cases hm : s.out[sys.got]? with
  | none => rw [hm] at h; cases h
  | some m =>
    rw [hm] at h
    by_cases hp : sys.phase = .ended
    · simp only [hp, if_true] at h; cases h
    · simp only [hp, if_false, Option.some.injEq] at h
      subst h
      refine ⟨?_, rfl, rfl⟩
      cases v.stage with
      | asked p u g o n => rw [o] at hm; simp at hm
      | moded p u g o n =>
        rcases o with ⟨-, o⟩ | ⟨o1, o⟩
        · rw [o] at hm; simp at hm
        · have hm0 := hm
          rw [o, g] at hm
          simp only [List.getElem?_cons_zero, Option.some.injEq] at hm
          subst hm
          have he : echo io (service dtn) sys.phase modeMsg = (.subscribe, [.text ("/subscribe " ++ service dtn)]) := by
            rw [p]; rfl
          rw [he]
          refine v.readOther hm0 rfl rfl (.asking rfl ?_ ?_ o1 o ⟨n.sub, n.hand⟩)
          · change sys.up ++ _ = _; rw [u]; rfl
          · change sys.got + 1 = 1; rw [g]
      | asking p u g m' o n => rw [o, g] at hm; simp at hm
      | lost p u g a m' o => rw [o, g] at hm; simp at hm
      | done m' t rest o p r =>
        rcases p with ⟨p1, p2, p3⟩ | ⟨p1, p2, p3⟩ | ⟨p1, -⟩
        · have hm0 := hm
          rw [o, p2] at hm
          simp only [List.getElem?_cons_succ, List.getElem?_cons_zero, Option.some.injEq] at hm
          subst hm
          by_cases ht : startsWith t "200 subscribed" = true
          · have he : echo io (service dtn) sys.phase (.text t) = (.serving, []) := by
              rw [p1]; simp only [echo, ht, if_true]
            rw [he]
            refine v.readOther hm0 rfl rfl (.done m' t rest o (.inr (.inl ⟨rfl, ?_, ?_⟩)) r)
            · change 2 ≤ sys.got + 1; omega
            · change ∀ u ∈ sys.up ++ [], _; rw [p3]; simp
          · have he : echo io (service dtn) sys.phase (.text t) = (.ended, []) := by
              rw [p1]; simp only [echo, ht, if_false, Bool.false_eq_true]
            rw [he]
            refine v.readOther hm0 rfl rfl (.done m' t rest o (.inr (.inr ⟨rfl, ?_, ?_, by simpa using ht⟩)) r)
            · change 2 ≤ sys.got + 1; omega
            · change sys.up ++ [] = _; rw [p3]; rfl
        · have quiet : bins [m] = [] → echo io (service dtn) sys.phase m = (.serving, []) →
              Inv x host store io dtn reg ep { sys with got := sys.got + 1, phase := (echo io (service dtn) sys.phase m).1, up := sys.up ++ (echo io (service dtn) sys.phase m).2 } s W k := by
            intro hb he
            rw [he]
            refine v.readOther hm hb rfl (.done m' t rest o (.inr (.inl ⟨rfl, ?_, ?_⟩)) r)
            · change 2 ≤ sys.got + 1; omega
            · change ∀ u ∈ sys.up ++ [], _; simpa using p3
          cases m with
          | text t' => exact quiet rfl (by rw [p1]; rfl)
          | ping t' => exact quiet rfl (by rw [p1]; rfl)
          | binary b =>
            have hlt := (List.getElem?_eq_some_iff.mp hm).1
            obtain ⟨bb, bid, hbb, hrec⟩ := v.tells hG hm
            · have he : echo io (service dtn) sys.phase (.binary b) = (.serving, [.binary (io.send (flipped bb))]) := by
                rw [p1]; simp only [echo, hrec, response_flipped]
              rw [he]
              have hread : readSo x { sys with got := sys.got + 1, phase := .serving, up := sys.up ++ [.binary (io.send (flipped bb))] } s
                  = readSo x sys s ++ [bb] := by
                unfold readSo
                dsimp only
                rw [bins_take hm]
                simp only [bins, List.length_append, List.length_cons, List.length_nil, Nat.zero_add]
                rw [List.take_add_one, hbb]; rfl
              refine ⟨v.sess, v.outs, ?_, v.le, v.all, v.gave, hlt, .done m' t rest o (.inr (.inl ⟨rfl, ?_, ?_⟩)) r⟩
              · rw [hread, List.map_append, ← v.sent]
                simp [upBins_append, upBins]
              · change 2 ≤ sys.got + 1; omega
              · change ∀ u ∈ sys.up ++ [_], _
                intro u hu
                rcases List.mem_append.mp hu with hu | hu
                · exact p3 u hu
                · rw [List.mem_singleton] at hu; exact ⟨_, hu⟩
        · exact absurd p1 hp

theorem Inv.read_serving {sys sys' : System} {s : Session} {W k} (v : Inv x host store io dtn reg ep sys s W k)
    (hG : AllReadable x host store io sys) (h0 : sys.phase = .serving)
    (h : sys.step x host store io (service dtn) .read = some sys') : sys'.phase = .serving := by
  simp only [System.step, v.sess] at h
  cases hm : s.out[sys.got]? with
  | none => rw [hm] at h; cases h
  | some m =>
    rw [hm] at h
    simp only [h0, reduceCtorEq, if_false, Option.some.injEq] at h
    subst h
    cases m with
    | text t => rfl
    | ping t => rfl
    | binary b =>
      obtain ⟨bb, bid, -, hrec⟩ := v.tells hG hm
      simp only [echo, hrec]

/-- The node has handled a message of the program. -/
theorem Inv.talked {sys : System} {s s' : Session} {W W' k k'} {ev : Ev} {up : List Up} {o : List Msg} (v : Inv x host store io dtn reg ep sys s W k)
    (hs' : (hub x host store (sys.evs ++ [ev])).sessions[sys.conn]? = some s') (hh : s'.handled = s.handled) (ho : s'.out = s.out ++ o)
    (hb : bins o = []) (hsent : W' ++ upBins up = W ++ upBins sys.up) (hle : k' ≤ W'.length) (hall : s'.alive = true → k' = W'.length)
    (hg : given x host sys.conn (Ws.init store) sys.evs ++ given x host sys.conn (hub x host store sys.evs) [ev] = ((told x s).take k').map (answer x))
    (st : Stage x host store dtn reg ep { sys with evs := sys.evs ++ [ev], up := up } s') :
    Inv x host store io dtn reg ep { sys with evs := sys.evs ++ [ev], up := up } s' W' k' := by
  have ht : told x s' = told x s := by unfold told; rw [hh]
  refine ⟨hs', ?_, ?_, hle, hall, ?_, ?_, st⟩
  · rw [ho, bins_append, hb, List.append_nil, ht]; exact v.outs
  · change W' ++ upBins up = _
    rw [hsent, v.sent, readSo_grow (sys := sys) (sys' := { sys with evs := sys.evs ++ [ev], up := up }) rfl v.gots (by rw [ho]; exact List.prefix_append _ _) (by rw [ht]; exact List.prefix_refl _) v.outs]
  · change given x host sys.conn (Ws.init store) (sys.evs ++ [ev]) = _
    rw [given_snoc, ht, ← hg]; rfl
  · change sys.got ≤ _; rw [ho]; exact Nat.le_trans v.gots (by simp)

theorem parse_data : parseCmd "/data" = .data := by decide +kernel
theorem parse_subscribe (dtn : Bool) : parseCmd ("/subscribe " ++ service dtn) = .subscribe (some (service dtn)) := by
  cases dtn <;> decide +kernel

theorem live_dead {h : Hub} {i : Nat} {s : Session} (f : Session → Hub) (hs : h.sessions[i]? = some s) (ha : s.alive = false) : h.live i f = h := by
  simp [Hub.live, hs, ha]

theorem live_alive {h : Hub} {i : Nat} {s : Session} (f : Session → Hub) (hs : h.sessions[i]? = some s) (ha : s.alive = true) : h.live i f = f s := by
  simp [Hub.live, hs, ha]

/-- The endpoint of the service, and that it is registered. -/
structure Registered (x : Ext) (host : EID) (dtn : Bool) (ep : EID) (evs : List Ev) : Prop where
  name : x.newEndpoint host (service dtn) = some ep
  reg : registered ep evs.reverse = true

theorem subscribe_text {h : Hub} {i : Nat} {s : Session} (hs : h.sessions[i]? = some s) (hp : x.parseEid (service dtn) = none) :
    ∃ t, ∃ s', (subscribe x host h i (some (service dtn))).sessions[i]? = some s' ∧ s'.handled = s.handled ∧ s'.mode = s.mode ∧ s'.alive = s.alive ∧
      s'.out = s.out ++ [.text t] := by
  unfold subscribe
  simp only [hp]
  split
  · split
    · exact ⟨_, _, upd_self hs, rfl, rfl, rfl, rfl⟩
    · unfold subscribeTo; exact ⟨_, _, upd_mk hs, rfl, rfl, rfl, rfl⟩
  · exact ⟨_, _, upd_self hs, rfl, rfl, rfl, rfl⟩

theorem Inv.handle {sys sys' : System} {s : Session} {W k} (v : Inv x host store io dtn reg ep sys s W k)
    (hG : AllReadable x host store io sys) (hp : x.parseEid (service dtn) = none)
    (hr : reg → Registered x host dtn ep sys.evs)
    (h : sys.step x host store io (service dtn) .handle = some sys') : ∃ s' W' k', Inv x host store io dtn reg ep sys' s' W' k' := by
  simp only [System.step] at h
  have hac := alive_connected v.sess
  cases v.stage with
  | asked p u g o n =>
    rw [u] at h
    simp only [Option.some.injEq] at h
    subst h
    have hn' : Before x host store { sys with evs := sys.evs ++ [.text sys.conn "/data"], up := [] } := by
      refine ⟨fun e => ?_, (handed_none n.sub).trans n.hand⟩
      simp only [List.reverse_append, List.reverse_cons, List.reverse_nil, List.nil_append, List.singleton_append, subscribed, parse_data]
      rw [n.sub e]; simp
    cases ha : s.alive with
    | false =>
      refine ⟨s, W, k, v.talked (o := []) ?_ rfl (by simp) rfl (by rw [u]; rfl) v.le v.all ?_ (.moded p rfl g (.inl ⟨ha, o⟩) hn')⟩
      · rw [hub_snoc]; simp only [step]; rw [live_dead _ v.sess ha]; exact v.sess
      · rw [given_text, List.append_nil]; exact v.gave
    | true =>
      refine ⟨({ s with mode := .data .cbor } : Session).say modeMsg, W, k, v.talked (o := [modeMsg]) ?_ rfl rfl rfl (by rw [u]; rfl) v.le (fun _ => v.all ha) ?_
        (.moded p rfl g (.inr ⟨rfl, ?_⟩) hn')⟩
      · rw [hub_snoc]; simp only [step]; rw [live_alive _ v.sess ha]; simp only [handleText, parse_data]; exact upd_self v.sess
      · rw [given_text, List.append_nil]; exact v.gave
      · change s.out ++ [modeMsg] = _; rw [o]; rfl
  | moded p u g o n => rw [u] at h; cases h
  | asking p u g m o n =>
    rw [u] at h
    simp only [Option.some.injEq] at h
    subst h
    cases ha : s.alive with
    | false =>
      refine ⟨s, W, k, v.talked (o := []) ?_ rfl (by simp) rfl (by rw [u]; rfl) v.le v.all ?_ (.lost p rfl g ha m o)⟩
      · rw [hub_snoc]; simp only [step]; rw [live_dead _ v.sess ha]; exact v.sess
      · rw [given_text, List.append_nil]; exact v.gave
    | true =>
      obtain ⟨t, s', h1, h2, h3, h4, h5⟩ := subscribe_text (host := host) (h := hub x host store sys.evs) v.sess hp
      have hstep : hub x host store (sys.evs ++ [.text sys.conn ("/subscribe " ++ service dtn)]) = subscribe x host (hub x host store sys.evs) sys.conn (some (service dtn)) := by
        rw [hub_snoc]; simp only [step]; rw [live_alive _ v.sess ha]; simp only [handleText, parse_subscribe]
      refine ⟨s', W, k, v.talked (o := [.text t]) (by rw [hstep]; exact h1) h2 h5 rfl (by rw [u]; rfl) v.le (fun _ => v.all ha) ?_
        (.done (h3.trans m) t [] (by rw [h5, o]; rfl) (.inl ⟨p, g, rfl⟩) fun hreg => ?_)⟩
      · rw [given_text, List.append_nil]; exact v.gave
      · have hR := hr hreg
        have hmeant : meant x host (some (service dtn)) = some ep := by simp [meant, hp, hR.name]
        rw [ha] at hac
        refine ⟨?_, fun _ => ?_⟩
        · rcases Props.C59_subscribe_answer x host store sys.evs sys.conn _ _ hac.symm (parse_subscribe dtn) with ⟨e, -, -, -, more, ho⟩ | ⟨hno, -⟩
          · change outbox (hub x host store (sys.evs ++ [_])) sys.conn = outbox (hub x host store sys.evs) sys.conn ++ _ at ho
            rw [hstep] at ho
            simp only [outbox, h1, v.sess, Option.map_some, Option.getD_some, h5, List.append_cancel_left_eq, List.cons.injEq, Msg.text.injEq] at ho
            exact ho.1
          · have := hno ep hmeant
            rw [hR.reg] at this; cases this
        · simp only [List.reverse_append, List.reverse_cons, List.reverse_nil, List.nil_append, List.singleton_append, subscribed, parse_subscribe]
          simp [hmeant, hR.reg, ← hac]
  | lost p u g a m o => rw [u] at h; cases h
  | done m t rest o p r =>
    rcases p with ⟨-, -, p3⟩ | ⟨p1, p2, p3⟩ | ⟨-, -, p3, -⟩
    · rw [p3] at h; cases h
    · cases hu : sys.up with
      | nil => rw [hu] at h; cases h
      | cons u up =>
        obtain ⟨b, rfl⟩ := p3 u (by rw [hu]; simp)
        rw [hu] at h
        simp only [Option.some.injEq] at h
        subst h
        have hsent : (W ++ [b]) ++ upBins up = W ++ upBins sys.up := by rw [hu]; simp [upBins]
        have hr' : reg → t = "200 subscribed" ∧ (connected sys.conn (sys.evs ++ [Ev.binary sys.conn b]).reverse = true →
            subscribed x host sys.conn ep (sys.evs ++ [Ev.binary sys.conn b]).reverse = true) := by
          intro hreg
          refine ⟨(r hreg).1, fun hc => ?_⟩
          simp only [List.reverse_append, List.reverse_cons, List.reverse_nil, List.nil_append, List.singleton_append, subscribed, connected] at hc ⊢
          exact (r hreg).2 hc
        have hps : ∀ u ∈ up, ∃ b, u = Up.binary b := fun u hu' => p3 u (by rw [hu]; exact List.mem_cons_of_mem _ hu')
        cases ha : s.alive with
        | false =>
          have hh : hub x host store (sys.evs ++ [.binary sys.conn b]) = hub x host store sys.evs := by
            rw [hub_snoc]; simp only [step]; rw [live_dead _ v.sess ha]
          refine ⟨s, W ++ [b], k, v.talked (o := []) (by rw [hh]; exact v.sess) rfl (by simp) rfl hsent (by have := v.le; simp; omega)
            (fun h => by rw [ha] at h; cases h) ?_ (.done m t rest o (.inr (.inl ⟨p1, p2, hps⟩)) hr')⟩
          have : given x host sys.conn (hub x host store sys.evs) [.binary sys.conn b] = [] := by
            simp only [given, if_true, List.append_nil]
            rw [← hub_snoc, hh]; simp
          rw [this, List.append_nil]; exact v.gave
        | true =>
          have hk := v.all ha
          -- the bundle it answers
          have hidx : ((readSo x sys s)[W.length]?).map (fun b => io.send (flipped b)) = some b := by
            rw [← List.getElem?_map, ← v.sent, hu]; simp [upBins]
          cases hbb : (readSo x sys s)[W.length]? with
          | none => rw [hbb] at hidx; cases hidx
          | some bb =>
            rw [hbb] at hidx
            simp only [Option.map_some, Option.some.injEq] at hidx
            have htold : (told x s)[k]? = some bb := by
              rw [hk]
              unfold readSo at hbb
              rw [List.getElem?_take] at hbb
              split at hbb
              · exact hbb
              · cases hbb
            obtain ⟨i1, i2⟩ := told_mem v.sess (List.mem_of_getElem? htold)
            have rd := hG bb i1 i2
            have hdec : x.decode .cbor b = some (flipped bb) := by rw [← hidx]; exact rd.reply
            have e1 : x.parseEid (flipped bb).dst = some bb.primary.source := rd.source
            have e2 : x.parseEid (flipped bb).src = some bb.primary.destination := rd.destination
            have hstep : hub x host store (sys.evs ++ [.binary sys.conn b]) =
                ({ hub x host store sys.evs with submitted := (hub x host store sys.evs).submitted ++ [answer x bb] } : Hub).upd sys.conn fun s =>
                  s.say (.text ("200 Sent bundle " ++ (answer x bb).id ++ " with " ++ toString (flipped bb).data.length ++ " bytes")) := by
              rw [hub_snoc]; simp only [step]; rw [live_alive _ v.sess ha]
              simp only [handleBinary, m, hdec, e1, e2]
              rfl
            generalize ("200 Sent bundle " ++ (answer x bb).id ++ " with " ++ toString (flipped bb).data.length ++ " bytes") = msg at hstep
            refine ⟨s.say (.text msg), W ++ [b], k + 1, v.talked (o := [.text msg]) (by rw [hstep]; exact upd_mk v.sess) rfl rfl rfl hsent (by simp [hk]) (fun _ => by simp [hk]) ?_
              (.done m t (rest ++ [.text msg]) (by change s.out ++ [.text msg] = _; rw [o]; rfl) (.inr (.inl ⟨p1, p2, hps⟩)) hr')⟩
            have : given x host sys.conn (hub x host store sys.evs) [.binary sys.conn b] = [answer x bb] := by
              simp only [given, if_true, List.append_nil]
              rw [← hub_snoc, hstep]
              simp [Hub.upd]
            rw [this, v.gave, List.take_add_one, htold]
            simp
    · rw [p3] at h; cases h

theorem System.run_snoc (endpoint : String) (sys : System) (ms : List Move) (m : Move) :
    sys.run x host store io endpoint (ms ++ [m]) = (sys.run x host store io endpoint ms).bind fun s => s.step x host store io endpoint m := by
  induction ms generalizing sys with
  | nil => simp [System.run]
  | cons m' ms ih =>
    simp only [List.cons_append, System.run]
    cases sys.step x host store io endpoint m' with
    | none => rfl
    | some s => simp only [Option.bind_some]; exact ih s

theorem System.run_append (endpoint : String) (sys : System) (a b : List Move) :
    sys.run x host store io endpoint (a ++ b) = (sys.run x host store io endpoint a).bind fun s => s.run x host store io endpoint b := by
  induction a generalizing sys with
  | nil => simp [System.run]
  | cons m' ms ih =>
    simp only [List.cons_append, System.run]
    cases sys.step x host store io endpoint m' with
    | none => rfl
    | some s => simp only [Option.bind_some]; exact ih s

theorem opened_reverse (evs : List Ev) : opened evs.reverse = evs.count .connect := by
  rw [← List.count_reverse]
  generalize evs.reverse = l
  induction l with
  | nil => rfl
  | cons ev l ih => cases ev <;> simp [opened, ih]

theorem given_before (evs : List Ev) {i : Nat} (h : opened evs.reverse ≤ i) : given x host i (Ws.init store) evs = [] := by
  induction evs using List.reverseRecOn with
  | nil => rfl
  | append_singleton evs ev ih =>
    rw [List.reverse_append] at h
    simp only [List.reverse_cons, List.reverse_nil, List.nil_append, List.singleton_append] at h
    have hle : opened evs.reverse ≤ i := by cases ev <;> simp only [opened] at h <;> omega
    rw [given_snoc, ih hle, List.nil_append]
    cases ev with
    | binary j b =>
      simp only [given, List.append_nil]
      by_cases hj : j = i
      · subst hj
        rw [if_pos rfl]
        have hl : (Ws.run x host (Ws.init store) evs).sessions[j]? = none := by
          have := (Track.run x host store evs).len
          rw [List.getElem?_eq_none]
          simp only [V, List.length_map] at this
          omega
        simp [step, Hub.live, hl]
      · rw [if_neg hj]
    | _ => rfl

theorem Inv.start (before : List Ev) : Inv x host store io dtn reg ep (EchoPing.start before) ({} : Session) [] 0 := by
  have hl : (Ws.run x host (Ws.init store) before).sessions.length = before.count .connect := by
    have := (Track.run x host store before).len
    simp only [V, List.length_map] at this
    rw [this, opened_reverse]
  have ho : opened before.reverse = before.count .connect := opened_reverse before
  have hlast : (hub x host store (before ++ [.connect])).sessions = (Ws.run x host (Ws.init store) before).sessions ++ [({} : Session)] := by
    rw [hub_snoc]; rfl
  have hhand : handedTo (hub x host store (before ++ [.connect])) (before.count .connect) = [] := by
    rw [handed_none (fun e => (fresh (x := x) (host := host) (Nat.le_of_eq ho)).2 e)]
    exact (Books.run x host store before).later _ (Nat.le_of_eq hl)
  refine ⟨?_, rfl, rfl, Nat.le_refl _, fun _ => rfl, ?_, Nat.le_refl _, .asked rfl rfl rfl rfl ⟨fun e => ?_, hhand⟩⟩
  · change (hub x host store (before ++ [.connect])).sessions[before.count .connect]? = _
    rw [hlast, ← hl]; simp
  · change given x host (before.count .connect) (Ws.init store) (before ++ [.connect]) = _
    rw [given_snoc, given_before before (Nat.le_of_eq ho)]; rfl
  · change subscribed x host (before.count .connect) e (before ++ [Ev.connect]).reverse = false
    simp only [List.reverse_append, List.reverse_cons, List.reverse_nil, List.nil_append, List.singleton_append, subscribed]
    exact (fresh (x := x) (host := host) (Nat.le_of_eq ho)).2 e

/-- What a move adds to the history. -/
theorem step_evs {endpoint : String} {sys sys' : System} {m : Move} (h : sys.step x host store io endpoint m = some sys') :
    sys'.conn = sys.conn ∧ (sys'.evs = sys.evs ∨ (∃ ev, m = .other ev ∧ sys'.evs = sys.evs ++ [ev]) ∨
      (∃ t, sys'.evs = sys.evs ++ [.text sys.conn t]) ∨ ∃ b, sys'.evs = sys.evs ++ [.binary sys.conn b]) := by
  cases m with
  | other ev =>
    simp only [System.step] at h
    split at h
    · cases h
    · cases h; exact ⟨rfl, .inr (.inl ⟨ev, rfl, rfl⟩)⟩
  | read =>
    simp only [System.step] at h
    split at h
    · cases h
    · split at h
      · cases h
      · split at h
        · cases h
        · cases h; exact ⟨rfl, .inl rfl⟩
  | handle =>
    simp only [System.step] at h
    split at h
    · cases h
    · cases h; exact ⟨rfl, .inr (.inr (.inl ⟨_, rfl⟩))⟩
    · cases h; exact ⟨rfl, .inr (.inr (.inr ⟨_, rfl⟩))⟩

theorem step_handed {endpoint : String} {sys sys' : System} {m : Move} (h : sys.step x host store io endpoint m = some sys') :
    handedTo (hub x host store sys.evs) sys.conn <+: handedTo (hub x host store sys'.evs) sys'.conn := by
  obtain ⟨hc, he⟩ := step_evs h
  rw [hc]
  rcases he with he | ⟨ev, -, he⟩ | ⟨t, he⟩ | ⟨b, he⟩ <;> rw [he]
  · exact List.prefix_refl _
  all_goals exact handed_mono _ _ _

theorem Inv.run {before : List Ev} {moves : List Move} {sys : System}
    (hrun : (EchoPing.start before).run x host store io (service dtn) moves = some sys) (hG : AllReadable x host store io sys)
    (hp : x.parseEid (service dtn) = none)
    (hr : reg → x.newEndpoint host (service dtn) = some ep ∧ registered ep before.reverse = true ∧ Move.other (.unregister ep) ∉ moves) :
    (∃ s W k, Inv x host store io dtn reg ep sys s W k) ∧ (reg → registered ep sys.evs.reverse = true) := by
  induction moves using List.reverseRecOn generalizing sys with
  | nil =>
    simp only [System.run, Option.some.injEq] at hrun
    subst hrun
    refine ⟨⟨_, _, _, Inv.start before⟩, fun h => ?_⟩
    have := (hr h).2.1
    simpa [EchoPing.start, registered] using this
  | append_singleton ms m ih =>
    rw [System.run_snoc] at hrun
    cases hm : (EchoPing.start before).run x host store io (service dtn) ms with
    | none => rw [hm] at hrun; cases hrun
    | some sys0 =>
      rw [hm] at hrun
      simp only [Option.bind_some] at hrun
      have hG0 : AllReadable x host store io sys0 := fun b hb => hG b ((step_handed hrun).subset hb)
      obtain ⟨⟨s, W, k, v⟩, hreg⟩ := ih hm hG0 (fun h => ⟨(hr h).1, (hr h).2.1, fun hmem => (hr h).2.2 (List.mem_append_left _ hmem)⟩)
      refine ⟨?_, fun h => ?_⟩
      · cases m with
        | other ev =>
          simp only [System.step] at hrun
          by_cases hf : from' sys0.conn ev = true
          · rw [if_pos hf] at hrun; cases hrun
          · rw [if_neg hf, Option.some.injEq] at hrun
            subst hrun
            obtain ⟨s', v'⟩ := v.other (by simpa using hf)
            exact ⟨s', W, k, v'⟩
        | read => exact ⟨s, W, k, (v.read hG0 hrun).1⟩
        | handle => exact v.handle hG0 hp (fun h => ⟨(hr h).1, hreg h⟩) hrun
      · obtain ⟨-, he⟩ := step_evs hrun
        have h0 := hreg h
        rcases he with he | ⟨ev, hev, he⟩ | ⟨t, he⟩ | ⟨b, he⟩ <;> rw [he]
        · exact h0
        · simp only [List.reverse_append, List.reverse_cons, List.reverse_nil, List.nil_append, List.singleton_append]
          have hne : ev ≠ .unregister ep := by
            rintro rfl
            exact (hr h).2.2 (by rw [hev]; simp)
          cases ev with
          | register e => simp only [registered]; split <;> [rfl; exact h0]
          | unregister e =>
            simp only [registered]
            rw [if_neg (by rintro rfl; exact hne rfl)]; exact h0
          | _ => exact h0
        · simpa [registered] using h0
        · simpa [registered] using h0

end Dtn.EchoPing
