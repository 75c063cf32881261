import Verif.Spec.Httpd
import Verif.Lemmas.Agents
import Verif.Lemmas.MemStore
/-! Lemmas about the HTTP interface. -/

namespace Dtn.Httpd
open Spec

theorem octet_eq (g : UInt16) : ((g >>> 8).toUInt8 = 127) ↔ g.toNat / 256 = 127 := by
  have hg := g.toNat_lt
  rw [← UInt8.toNat_inj]
  simp only [UInt16.toNat_toUInt8, UInt16.toNat_shiftRight, Nat.shiftRight_eq_div_pow]
  have : (UInt16.toNat 8 % 16) = 8 := rfl
  rw [this]
  have h2 : (127 : UInt8).toNat = 127 := rfl
  rw [h2]
  omega

theorem requireLocalhost_iff (cfg : Cfg) (a : IpAddr) :
    requireLocalhost cfg a = true ↔ cfg.unsafe_ = true ∨ HostItself a := by
  unfold requireLocalhost
  cases hu : cfg.unsafe_ with
  | true => simp
  | false =>
    simp only [Bool.false_eq_true, if_false, false_or]
    cases a with
    | v4 a b c d =>
      simp only [IpAddr.isLoopback, v4Loopback, IpAddr.toIpv4Octet, HostItself, ← UInt8.toNat_inj]
      by_cases h : a.toNat = 127
      · simp [h]
      · simp [h]
    | v6 a b c d e f g h =>
      simp only [IpAddr.isLoopback, IpAddr.toIpv4Octet, HostItself, v4Loopback]
      have z : ∀ u : UInt16, u.toNat = 0 ↔ u = 0 := fun u => by rw [← UInt16.toNat_inj]; rfl
      have o : ∀ u : UInt16, u.toNat = 1 ↔ u = 1 := fun u => by rw [← UInt16.toNat_inj]; rfl
      have f' : ∀ u : UInt16, u.toNat = 65535 ↔ u = 0xffff := fun u => by rw [← UInt16.toNat_inj]; rfl
      simp only [z, o, f', ← octet_eq]
      by_cases h5 : a = 0 ∧ b = 0 ∧ c = 0 ∧ d = 0 ∧ e = 0
      · obtain ⟨rfl, rfl, rfl, rfl, rfl⟩ := h5
        by_cases hf : f = 0
        · subst hf
          by_cases hl : g = 0 ∧ h = 1
          · obtain ⟨rfl, rfl⟩ := hl; simp
          · by_cases hg : (g >>> 8).toUInt8 = 127
            · simp [hg]
            · simp [hg]
        · by_cases hf2 : f = 0xffff
          · subst hf2; simp
          · simp [hf, hf2]
      · simp only [Bool.and_eq_true, decide_eq_true_eq]
        by_cases ha : a = 0 <;> by_cases hb : b = 0 <;> by_cases hc : c = 0 <;> by_cases hd : d = 0 <;>
          by_cases he : e = 0 <;> simp_all

theorem find_route {r : Router} {p : String} {e : Entry} (q hs) (h : r.find? (fun e => e.path = p) = some e) :
    (Router.route q hs r).find? (fun e => e.path = p) = some e := by
  unfold Router.route
  rw [List.find?_append, h]; rfl

/-- Later routes do not hide the local ones. -/
theorem find_local (cfg : Cfg) {p : String} {e : Entry} (he : (Router.guardAll localRoutes).find? (fun e => e.path = p) = some e) :
    (router cfg).find? (fun e => e.path = p) = some e := by
  unfold router openRoutes
  dsimp only
  repeat apply find_route
  split
  · apply find_route
    split
    · exact find_route _ _ he
    · exact he
  · split
    · exact find_route _ _ he
    · exact he

/-- The control routes apart from the two sockets are guarded. -/
theorem find_control (cfg : Cfg) (p : String) (hp : p ∈ controlPaths) (h1 : p ≠ "/ws/erouting") (h2 : p ≠ "/ws/ecla") :
    ∃ e, (router cfg).find? (fun e => e.path = p) = some e ∧ e.guarded = true := by
  have key : ∃ e, (Router.guardAll localRoutes).find? (fun e => e.path = p) = some e ∧ e.guarded = true := by
    simp only [controlPaths, List.mem_cons, List.not_mem_nil, or_false] at hp
    rcases hp with rfl | rfl | rfl | rfl | rfl | rfl | rfl | rfl | rfl | rfl | rfl | rfl | rfl | rfl | rfl | rfl | rfl
    all_goals first
      | exact absurd rfl h1
      | exact absurd rfl h2
      | exact ⟨_, by rfl, rfl⟩
  obtain ⟨e, he, hg⟩ := key
  exact ⟨e, find_local cfg he, hg⟩

/-- The handlers of unguarded routes. -/
def openHandler (h : Handler) : Prop :=
  h = .wsErouting ∨ h = .wsEcla ∨ h = .download ∨ h = .downloadHex ∨ h = .push ∨ h = .page

theorem unguarded (cfg : Cfg) (e : Entry) (he : e ∈ router cfg) (hg : e.guarded = false) :
    ∀ m h, (m, h) ∈ e.handlers → openHandler h := by
  have hr : router cfg = Router.guardAll localRoutes ++
      ((if cfg.routing = "external" then [⟨"/ws/erouting", [(.get, .wsErouting)], false⟩] else []) ++
        ((if cfg.eclaEnable then [⟨"/ws/ecla", [(.get, .wsEcla)], false⟩] else []) ++ openRoutes [])) := by
    unfold router
    by_cases h1 : cfg.routing = "external" <;> by_cases h2 : cfg.eclaEnable <;> simp [h1, h2, openRoutes, Router.route]
  rw [hr] at he
  intro m h hm
  unfold openHandler
  rcases List.mem_append.mp he with he | he
  · simp only [Router.guardAll, List.mem_map] at he
    obtain ⟨e', _, rfl⟩ := he
    simp at hg
  rcases List.mem_append.mp he with he | he
  · split at he
    · simp only [List.mem_singleton] at he; subst he
      simp only [List.mem_singleton, Prod.mk.injEq] at hm
      simp [hm.2]
    · simp at he
  rcases List.mem_append.mp he with he | he
  · split at he
    · simp only [List.mem_singleton] at he; subst he
      simp only [List.mem_singleton, Prod.mk.injEq] at hm
      simp [hm.2]
    · simp at he
  · simp only [openRoutes, Router.route, List.nil_append, List.cons_append, List.mem_cons, List.not_mem_nil, or_false] at he
    rcases he with rfl | rfl | rfl | rfl | rfl | rfl | rfl | rfl | rfl | rfl | rfl | rfl | rfl | rfl | rfl | rfl <;>
      (simp only [List.mem_singleton, Prod.mk.injEq] at hm; simp [hm.2])

theorem mem_of_lookup {l : List (Method × Handler)} {m : Method} {h : Handler} (e : l.lookup m = some h) : (m, h) ∈ l := by
  induction l with
  | nil => simp at e
  | cons x l ih =>
    obtain ⟨m', h'⟩ := x
    rw [List.lookup_cons] at e
    split at e
    · rename_i hm; simp only [beq_iff_eq] at hm; cases e; subst hm; exact List.mem_cons_self
    · exact List.mem_cons_of_mem _ (ih e)

theorem sameControl_refl (w : World) : SameControl w w := ⟨rfl, rfl, rfl, rfl, rfl⟩

theorem sameControl_trans {a b c : World} (h : SameControl a b) (h' : SameControl b c) : SameControl a c :=
  ⟨h'.1.trans h.1, h'.2.1.trans h.2.1, h'.2.2.1.trans h.2.2.1, h'.2.2.2.1.trans h.2.2.2.1, h'.2.2.2.2.trans h.2.2.2.2⟩

theorem open_same (x : Ext) (cfg : Cfg) (w : World) (r : Req) (h : Handler) (ho : openHandler h) :
    SameControl w (handle x cfg w r h).1 := by
  rcases ho with rfl | rfl | rfl | rfl | rfl | rfl
  · simp only [handle, upgrade]; split <;> exact ⟨rfl, rfl, rfl, rfl, rfl⟩
  · simp only [handle, upgrade]; split <;> exact ⟨rfl, rfl, rfl, rfl, rfl⟩
  · simp only [handle, download]; split <;> [exact sameControl_refl _; (split <;> exact sameControl_refl _)]
  · simp only [handle, downloadHex]; split <;> [exact sameControl_refl _; (split <;> exact sameControl_refl _)]
  · simp only [handle, pushPost]; split <;> exact ⟨rfl, rfl, rfl, rfl, rfl⟩
  · exact sameControl_refl _

theorem serve_remote (x : Ext) (cfg : Cfg) (w : World) (r : Req) (hu : cfg.unsafe_ = false) (hr : ¬ HostItself r.addr) :
    SameControl w (serve x cfg w r).1 := by
  unfold serve
  cases hf : (router cfg).find? fun e => e.path = r.path with
  | none => exact sameControl_refl _
  | some e =>
    dsimp only
    by_cases hg : e.guarded = true
    · have : requireLocalhost cfg r.addr = false := by
        rw [Bool.eq_false_iff]; intro h
        rcases (requireLocalhost_iff _ _).mp h with h | h
        · rw [hu] at h; cases h
        · exact hr h
      simp only [hg, this, Bool.not_false, Bool.and_self, if_true]; exact sameControl_refl _
    · rw [Bool.not_eq_true] at hg
      simp only [hg, Bool.false_and, Bool.false_eq_true, if_false]
      cases hl : e.handlers.lookup r.method with
      | none => exact sameControl_refl _
      | some h => exact open_same x cfg w r h (unguarded cfg e (List.mem_of_find?_eq_some hf) hg _ _ (mem_of_lookup hl))

/-- A request that passes the guard reaches its handler. -/
theorem serve_local (x : Ext) (cfg : Cfg) (w : World) (r : Req) {e : Entry} {h : Handler}
    (he : (Router.guardAll localRoutes).find? (fun e => e.path = r.path) = some e)
    (hh : e.handlers.lookup r.method = some h) (hl : cfg.unsafe_ = true ∨ HostItself r.addr) :
    serve x cfg w r = handle x cfg w r h := by
  unfold serve
  rw [find_local cfg he]
  dsimp only
  rw [(requireLocalhost_iff cfg r.addr).mpr hl, hh]
  simp

theorem serve_download (x : Ext) (cfg : Cfg) (w : World) (r : Req) (hp : r.path = "/download") (hm : r.method = .get) :
    serve x cfg w r = download x w r := by
  unfold serve
  have : (router cfg).find? (fun e => e.path = r.path) = some ⟨"/download", [(.get, .download)], false⟩ := by
    rw [hp]; unfold router
    by_cases h1 : cfg.routing = "external" <;> by_cases h2 : cfg.eclaEnable = true <;> simp only [h1, h2, if_true, if_false] <;> rfl
  rw [this, hm]; rfl

theorem serve_push (x : Ext) (cfg : Cfg) (w : World) (r : Req) (hp : r.path = "/push") (hm : r.method = .post) :
    serve x cfg w r = pushPost x w r := by
  unfold serve
  have : (router cfg).find? (fun e => e.path = r.path) = some ⟨"/push", [(.post, .push)], false⟩ := by
    rw [hp]; unfold router
    by_cases h1 : cfg.routing = "external" <;> by_cases h2 : cfg.eclaEnable = true <;> simp only [h1, h2, if_true, if_false] <;> rfl
  rw [this, hm]; rfl

theorem serve_erouting (x : Ext) (cfg : Cfg) (w : World) (r : Req) (hc : cfg.routing = "external") (hp : r.path = "/ws/erouting")
    (hm : r.method = .get) : serve x cfg w r = upgrade w { w with routers := w.routers + 1 } r := by
  unfold serve
  have : (router cfg).find? (fun e => e.path = r.path) = some ⟨"/ws/erouting", [(.get, .wsErouting)], false⟩ := by
    rw [hp]; unfold router
    by_cases h2 : cfg.eclaEnable = true <;> simp only [hc, h2, if_true] <;> rfl
  rw [this, hm]; rfl

theorem serve_ecla (x : Ext) (cfg : Cfg) (w : World) (r : Req) (hc : cfg.eclaEnable = true) (hp : r.path = "/ws/ecla")
    (hm : r.method = .get) : serve x cfg w r = upgrade w { w with modules := w.modules + 1 } r := by
  unfold serve
  have : (router cfg).find? (fun e => e.path = r.path) = some ⟨"/ws/ecla", [(.get, .wsEcla)], false⟩ := by
    rw [hp]; unfold router
    by_cases h1 : cfg.routing = "external" <;> simp only [h1, hc, if_true, if_false] <;> rfl
  rw [this, hm]; rfl

theorem validService_iff (q : String) :
    isValidServiceName q = true ↔ ∀ c ∈ q.toList, c.isAlphanum ∨ c ∈ ['/', '-', '_', '.', '~'] := by
  unfold isValidServiceName
  rw [List.all_eq_true]
  refine forall_congr' fun c => forall_congr' fun _ => ?_
  simp [or_assoc]

theorem target_iff (x : Ext) (cfg : Cfg) (q : String) (e : EID) :
    target x cfg q = some (some e) ↔ NamesEndpoint x cfg.hostEid q e := by
  unfold target NamesEndpoint
  by_cases h : isValidServiceName q = true
  · rw [if_pos h, if_pos ((validService_iff q).mp h)]
    cases x.newEndpoint cfg.hostEid q <;> simp
  · rw [if_neg h, if_neg (fun h' => h ((validService_iff q).mpr h'))]
    cases x.parseEid q <;> simp

theorem target_none (x : Ext) (cfg : Cfg) (q : String) (h : target x cfg q = none) :
    isValidServiceName q = true ∧ x.newEndpoint cfg.hostEid q = none := by
  unfold target at h
  split at h
  · rename_i hv
    exact ⟨hv, by simpa using h⟩
  · split at h <;> simp at h

theorem sameToClients_refl (w : World) : SameToClients w w := ⟨rfl, rfl, rfl, fun _ => rfl, rfl, rfl, rfl, rfl⟩

theorem nodup_serve {x : Ext} {cfg : Cfg} {w : World} {r : Req} (h : (endpoints w).Nodup) :
    (endpoints (serve x cfg w r).1).Nodup := by
  have key : ∀ hd, (endpoints (handle x cfg w r hd).1).Nodup := by
    intro hd
    have stp : ∀ op, (endpoints { w with apps := w.apps.step op }).Nodup := fun op => Apps.nodup_eids_step h op
    cases hd <;> simp only [handle, peersAdd, peersDel, routingCmd, routingGetData, sendPost, delete, register, unregister, endpoint,
      insertGet, insertPost, upgrade, rndBundle, rndPeer, download, downloadHex, pushPost]
    all_goals (repeat' split) <;> first | exact h | exact stp _
  unfold serve
  repeat' split
  all_goals first | exact h | exact key _

theorem inv_serve {x : Ext} {cfg : Cfg} {w : World} {r : Req} (h : MemStore.Inv w.apps.store) :
    MemStore.Inv (serve x cfg w r).1.apps.store := by
  have hrem : ∀ (s : MemStore) b, MemStore.Inv s → MemStore.Inv (s.removeIfSingleton b) := by
    intro s b hs; unfold MemStore.removeIfSingleton; split <;> [exact hs.remove _; exact hs]
  have stp : ∀ op, MemStore.Inv (w.apps.step op).store := by
    intro op
    cases op <;> simp only [Apps.step]
    all_goals (repeat' split) <;> first | exact h | exact hrem _ _ h
  have key : ∀ hd, MemStore.Inv (handle x cfg w r hd).1.apps.store := by
    intro hd
    cases hd <;> simp only [handle, peersAdd, peersDel, routingCmd, routingGetData, sendPost, delete, register, unregister, endpoint,
      insertGet, insertPost, upgrade, rndBundle, rndPeer, download, downloadHex, pushPost]
    all_goals (repeat' split) <;> first | exact h | exact stp _ | exact h.remove _
  unfold serve
  repeat' split
  all_goals first | exact h | exact key _

theorem run_cons (x : Ext) (cfg : Cfg) (w : World) (r : Req) (rs : List Req) :
    run x cfg w (r :: rs) = run x cfg (serve x cfg w r).1 rs := by
  unfold run; rw [List.foldl_cons]

end Dtn.Httpd
