import Verif.Lemmas.Api
/-! Frame lemmas of the API model as simplification rules. -/
namespace Mcut.Api

@[simp] theorem reapEv_loc (s : St) (h : Nat) : (reapEv s h).loc = s.loc :=
  (reapEv_frame s h).1
@[simp] theorem reapEv_queue (s : St) (h : Nat) : (reapEv s h).queue = s.queue :=
  (reapEv_frame s h).2.1
@[simp] theorem reapEv_waits (s : St) (h : Nat) : (reapEv s h).waits = s.waits :=
  (reapEv_frame s h).2.2.1
@[simp] theorem reapEv_counter (s : St) (h : Nat) : (reapEv s h).counter = s.counter :=
  (reapEv_frame s h).2.2.2.1
@[simp] theorem reapEv_evs (s : St) (h : Nat) : (reapEv s h).evs = s.evs :=
  (reapEv_frame s h).2.2.2.2.1
@[simp] theorem reapEv_mgr (s : St) (h : Nat) : (reapEv s h).mgr = s.mgr :=
  (reapEv_frame s h).2.2.2.2.2.1
@[simp] theorem reapEv_cl (s : St) (h : Nat) : (reapEv s h).cl = s.cl :=
  (reapEv_frame s h).2.2.2.2.2.2.1
@[simp] theorem reapEv_core (s : St) (h : Nat) (x : Nat) : core ((reapEv s h).ev x) = core (s.ev x) :=
  (reapEv_frame s h).2.2.2.2.2.2.2.1 x
@[simp] theorem reapEv_returned (s : St) (h : Nat) : (reapEv s h).returned = s.returned :=
  (reapEv_frame s h).2.2.2.2.2.2.2.2.1
@[simp] theorem reapEv_issued (s : St) (h : Nat) : (reapEv s h).issued = s.issued :=
  (reapEv_frame s h).2.2.2.2.2.2.2.2.2.1
@[simp] theorem reapEv_ccs (s : St) (h : Nat) : (reapEv s h).ccs = s.ccs :=
  (reapEv_frame s h).2.2.2.2.2.2.2.2.2.2.1
@[simp] theorem reapEv_nq (s : St) (h : Nat) : (reapEv s h).nq = s.nq :=
  (reapEv_frame s h).2.2.2.2.2.2.2.2.2.2.2.1
@[simp] theorem reapEv_ctxs (s : St) (h : Nat) : (reapEv s h).ctxs = s.ctxs :=
  (reapEv_frame s h).2.2.2.2.2.2.2.2.2.2.2.2.1
@[simp] theorem reapEv_ub (s : St) (h : Nat) : (reapEv s h).ub = s.ub :=
  (reapEv_frame s h).2.2.2.2.2.2.2.2.2.2.2.2.2.1
@[simp] theorem reapEv_inited (s : St) (h : Nat) : (reapEv s h).inited = s.inited :=
  (reapEv_frame s h).2.2.2.2.2.2.2.2.2.2.2.2.2.2.1
@[simp] theorem reapEv_done (s : St) (h : Nat) : (reapEv s h).done = s.done :=
  (reapEv_frame s h).2.2.2.2.2.2.2.2.2.2.2.2.2.2.2.1
@[simp] theorem reapEv_ctxHold (s : St) (h : Nat) : (reapEv s h).ctxHold = s.ctxHold :=
  (reapEv_frame s h).2.2.2.2.2.2.2.2.2.2.2.2.2.2.2.2.1
@[simp] theorem reapEv_regs (s : St) (h : Nat) : (reapEv s h).regs = s.regs :=
  (reapEv_frame s h).2.2.2.2.2.2.2.2.2.2.2.2.2.2.2.2.2.1
@[simp] theorem reapEv_log (s : St) (h : Nat) : (reapEv s h).log = s.log :=
  (reapEv_frame s h).2.2.2.2.2.2.2.2.2.2.2.2.2.2.2.2.2.2.1
@[simp] theorem reapEv_rets (s : St) (h : Nat) : (reapEv s h).rets = s.rets :=
  (reapEv_frame s h).2.2.2.2.2.2.2.2.2.2.2.2.2.2.2.2.2.2.2.1
@[simp] theorem reapEv_why (s : St) (h : Nat) : (reapEv s h).why = s.why :=
  (reapEv_frame s h).2.2.2.2.2.2.2.2.2.2.2.2.2.2.2.2.2.2.2.2.1
@[simp] theorem reapEv_tid (s : St) (h : Nat) (x : Nat) : ((reapEv s h).ev x).tid = (s.ev x).tid :=
  (reapEv_frame s h).2.2.2.2.2.2.2.2.2.2.2.2.2.2.2.2.2.2.2.2.2 x
@[simp] theorem dropEv_loc (s : St) (h : Nat) (a : Actor) : (dropEv s h a).loc = s.loc :=
  (dropEv_frame s h a).1
@[simp] theorem dropEv_queue (s : St) (h : Nat) (a : Actor) : (dropEv s h a).queue = s.queue :=
  (dropEv_frame s h a).2.1
@[simp] theorem dropEv_waits (s : St) (h : Nat) (a : Actor) : (dropEv s h a).waits = s.waits :=
  (dropEv_frame s h a).2.2.1
@[simp] theorem dropEv_counter (s : St) (h : Nat) (a : Actor) : (dropEv s h a).counter = s.counter :=
  (dropEv_frame s h a).2.2.2.1
@[simp] theorem dropEv_evs (s : St) (h : Nat) (a : Actor) : (dropEv s h a).evs = s.evs :=
  (dropEv_frame s h a).2.2.2.2.1
@[simp] theorem dropEv_mgr (s : St) (h : Nat) (a : Actor) : (dropEv s h a).mgr = s.mgr :=
  (dropEv_frame s h a).2.2.2.2.2.1
@[simp] theorem dropEv_cl (s : St) (h : Nat) (a : Actor) : (dropEv s h a).cl = s.cl :=
  (dropEv_frame s h a).2.2.2.2.2.2.1
@[simp] theorem dropEv_core (s : St) (h : Nat) (a : Actor) (x : Nat) : core ((dropEv s h a).ev x) = core (s.ev x) :=
  (dropEv_frame s h a).2.2.2.2.2.2.2.1 x
@[simp] theorem dropEv_returned (s : St) (h : Nat) (a : Actor) : (dropEv s h a).returned = s.returned :=
  (dropEv_frame s h a).2.2.2.2.2.2.2.2.1
@[simp] theorem dropEv_issued (s : St) (h : Nat) (a : Actor) : (dropEv s h a).issued = s.issued :=
  (dropEv_frame s h a).2.2.2.2.2.2.2.2.2.1
@[simp] theorem dropEv_ccs (s : St) (h : Nat) (a : Actor) : (dropEv s h a).ccs = s.ccs :=
  (dropEv_frame s h a).2.2.2.2.2.2.2.2.2.2.1
@[simp] theorem dropEv_nq (s : St) (h : Nat) (a : Actor) : (dropEv s h a).nq = s.nq :=
  (dropEv_frame s h a).2.2.2.2.2.2.2.2.2.2.2.1
@[simp] theorem dropEv_ctxs (s : St) (h : Nat) (a : Actor) : (dropEv s h a).ctxs = s.ctxs :=
  (dropEv_frame s h a).2.2.2.2.2.2.2.2.2.2.2.2.1
@[simp] theorem dropEv_ub (s : St) (h : Nat) (a : Actor) : (dropEv s h a).ub = s.ub :=
  (dropEv_frame s h a).2.2.2.2.2.2.2.2.2.2.2.2.2.1
@[simp] theorem dropEv_inited (s : St) (h : Nat) (a : Actor) : (dropEv s h a).inited = s.inited :=
  (dropEv_frame s h a).2.2.2.2.2.2.2.2.2.2.2.2.2.2.1
@[simp] theorem dropEv_done (s : St) (h : Nat) (a : Actor) : (dropEv s h a).done = s.done :=
  (dropEv_frame s h a).2.2.2.2.2.2.2.2.2.2.2.2.2.2.2.1
@[simp] theorem dropEv_ctxHold (s : St) (h : Nat) (a : Actor) : (dropEv s h a).ctxHold = s.ctxHold :=
  (dropEv_frame s h a).2.2.2.2.2.2.2.2.2.2.2.2.2.2.2.2.1
@[simp] theorem dropEv_regs (s : St) (h : Nat) (a : Actor) : (dropEv s h a).regs = s.regs :=
  (dropEv_frame s h a).2.2.2.2.2.2.2.2.2.2.2.2.2.2.2.2.2.1
@[simp] theorem dropEv_log (s : St) (h : Nat) (a : Actor) : (dropEv s h a).log = s.log :=
  (dropEv_frame s h a).2.2.2.2.2.2.2.2.2.2.2.2.2.2.2.2.2.2.1
@[simp] theorem dropEv_rets (s : St) (h : Nat) (a : Actor) : (dropEv s h a).rets = s.rets :=
  (dropEv_frame s h a).2.2.2.2.2.2.2.2.2.2.2.2.2.2.2.2.2.2.2.1
@[simp] theorem dropEv_why (s : St) (h : Nat) (a : Actor) : (dropEv s h a).why = s.why :=
  (dropEv_frame s h a).2.2.2.2.2.2.2.2.2.2.2.2.2.2.2.2.2.2.2.2.1
@[simp] theorem dropEv_tid (s : St) (h : Nat) (a : Actor) (x : Nat) : ((dropEv s h a).ev x).tid = (s.ev x).tid :=
  (dropEv_frame s h a).2.2.2.2.2.2.2.2.2.2.2.2.2.2.2.2.2.2.2.2.2 x
@[simp] theorem removeEv_loc (s : St) (h : Nat) : (removeEv s h).loc = s.loc :=
  (removeEv_frame s h).1
@[simp] theorem removeEv_queue (s : St) (h : Nat) : (removeEv s h).queue = s.queue :=
  (removeEv_frame s h).2.1
@[simp] theorem removeEv_waits (s : St) (h : Nat) : (removeEv s h).waits = s.waits :=
  (removeEv_frame s h).2.2.1
@[simp] theorem removeEv_counter (s : St) (h : Nat) : (removeEv s h).counter = s.counter :=
  (removeEv_frame s h).2.2.2.1
@[simp] theorem removeEv_evs (s : St) (h : Nat) : (removeEv s h).evs = s.evs.filter (· ≠ h) :=
  (removeEv_frame s h).2.2.2.2.1
@[simp] theorem removeEv_mgr (s : St) (h : Nat) : (removeEv s h).mgr = s.mgr :=
  (removeEv_frame s h).2.2.2.2.2.1
@[simp] theorem removeEv_cl (s : St) (h : Nat) : (removeEv s h).cl = s.cl :=
  (removeEv_frame s h).2.2.2.2.2.2.1
@[simp] theorem removeEv_core (s : St) (h : Nat) (x : Nat) : core ((removeEv s h).ev x) = core (s.ev x) :=
  (removeEv_frame s h).2.2.2.2.2.2.2.1 x
@[simp] theorem removeEv_returned (s : St) (h : Nat) : (removeEv s h).returned = s.returned :=
  (removeEv_frame s h).2.2.2.2.2.2.2.2.1
@[simp] theorem removeEv_issued (s : St) (h : Nat) : (removeEv s h).issued = s.issued :=
  (removeEv_frame s h).2.2.2.2.2.2.2.2.2.1
@[simp] theorem removeEv_ccs (s : St) (h : Nat) : (removeEv s h).ccs = s.ccs :=
  (removeEv_frame s h).2.2.2.2.2.2.2.2.2.2.1
@[simp] theorem removeEv_nq (s : St) (h : Nat) : (removeEv s h).nq = s.nq :=
  (removeEv_frame s h).2.2.2.2.2.2.2.2.2.2.2.1
@[simp] theorem removeEv_ctxs (s : St) (h : Nat) : (removeEv s h).ctxs = s.ctxs :=
  (removeEv_frame s h).2.2.2.2.2.2.2.2.2.2.2.2.1
@[simp] theorem removeEv_ub (s : St) (h : Nat) : (removeEv s h).ub = s.ub :=
  (removeEv_frame s h).2.2.2.2.2.2.2.2.2.2.2.2.2.1
@[simp] theorem removeEv_inited (s : St) (h : Nat) : (removeEv s h).inited = s.inited :=
  (removeEv_frame s h).2.2.2.2.2.2.2.2.2.2.2.2.2.2.1
@[simp] theorem removeEv_done (s : St) (h : Nat) : (removeEv s h).done = s.done :=
  (removeEv_frame s h).2.2.2.2.2.2.2.2.2.2.2.2.2.2.2.1
@[simp] theorem removeEv_ctxHold (s : St) (h : Nat) : (removeEv s h).ctxHold = s.ctxHold :=
  (removeEv_frame s h).2.2.2.2.2.2.2.2.2.2.2.2.2.2.2.2.1
@[simp] theorem removeEv_regs (s : St) (h : Nat) : (removeEv s h).regs = s.regs :=
  (removeEv_frame s h).2.2.2.2.2.2.2.2.2.2.2.2.2.2.2.2.2.1
@[simp] theorem removeEv_log (s : St) (h : Nat) : (removeEv s h).log = s.log :=
  (removeEv_frame s h).2.2.2.2.2.2.2.2.2.2.2.2.2.2.2.2.2.2.1
@[simp] theorem removeEv_rets (s : St) (h : Nat) : (removeEv s h).rets = s.rets :=
  (removeEv_frame s h).2.2.2.2.2.2.2.2.2.2.2.2.2.2.2.2.2.2.2.1
@[simp] theorem removeEv_why (s : St) (h : Nat) : (removeEv s h).why = s.why :=
  (removeEv_frame s h).2.2.2.2.2.2.2.2.2.2.2.2.2.2.2.2.2.2.2.2.1
@[simp] theorem removeEv_tid (s : St) (h : Nat) (x : Nat) : ((removeEv s h).ev x).tid = (s.ev x).tid :=
  (removeEv_frame s h).2.2.2.2.2.2.2.2.2.2.2.2.2.2.2.2.2.2.2.2.2 x
@[simp] theorem notifyCb_loc (s : St) (h : Nat) (l : Loc) : (notifyCb s h l).loc = upd s.loc h l :=
  (notifyCb_frame s h l).1
@[simp] theorem notifyCb_queue (s : St) (h : Nat) (l : Loc) : (notifyCb s h l).queue = s.queue :=
  (notifyCb_frame s h l).2.1
@[simp] theorem notifyCb_waits (s : St) (h : Nat) (l : Loc) : (notifyCb s h l).waits = s.waits :=
  (notifyCb_frame s h l).2.2.1
@[simp] theorem notifyCb_counter (s : St) (h : Nat) (l : Loc) : (notifyCb s h l).counter = s.counter :=
  (notifyCb_frame s h l).2.2.2.1
@[simp] theorem notifyCb_evs (s : St) (h : Nat) (l : Loc) : (notifyCb s h l).evs = s.evs :=
  (notifyCb_frame s h l).2.2.2.2.1
@[simp] theorem notifyCb_mgr (s : St) (h : Nat) (l : Loc) : (notifyCb s h l).mgr = s.mgr :=
  (notifyCb_frame s h l).2.2.2.2.2.1
@[simp] theorem notifyCb_cl (s : St) (h : Nat) (l : Loc) : (notifyCb s h l).cl = s.cl :=
  (notifyCb_frame s h l).2.2.2.2.2.2.1
@[simp] theorem notifyCb_core (s : St) (h : Nat) (l : Loc) (x : Nat) : core ((notifyCb s h l).ev x) = core (s.ev x) :=
  (notifyCb_frame s h l).2.2.2.2.2.2.2.1 x
@[simp] theorem notifyCb_returned (s : St) (h : Nat) (l : Loc) : (notifyCb s h l).returned = s.returned :=
  (notifyCb_frame s h l).2.2.2.2.2.2.2.2.1
@[simp] theorem notifyCb_issued (s : St) (h : Nat) (l : Loc) : (notifyCb s h l).issued = s.issued :=
  (notifyCb_frame s h l).2.2.2.2.2.2.2.2.2.1
@[simp] theorem notifyCb_ccs (s : St) (h : Nat) (l : Loc) : (notifyCb s h l).ccs = s.ccs :=
  (notifyCb_frame s h l).2.2.2.2.2.2.2.2.2.2.1
@[simp] theorem notifyCb_nq (s : St) (h : Nat) (l : Loc) : (notifyCb s h l).nq = s.nq :=
  (notifyCb_frame s h l).2.2.2.2.2.2.2.2.2.2.2.1
@[simp] theorem notifyCb_ctxs (s : St) (h : Nat) (l : Loc) : (notifyCb s h l).ctxs = s.ctxs :=
  (notifyCb_frame s h l).2.2.2.2.2.2.2.2.2.2.2.2.1
@[simp] theorem notifyCb_ub (s : St) (h : Nat) (l : Loc) : (notifyCb s h l).ub = s.ub :=
  (notifyCb_frame s h l).2.2.2.2.2.2.2.2.2.2.2.2.2.1
@[simp] theorem notifyCb_inited (s : St) (h : Nat) (l : Loc) : (notifyCb s h l).inited = s.inited :=
  (notifyCb_frame s h l).2.2.2.2.2.2.2.2.2.2.2.2.2.2.1
@[simp] theorem notifyCb_done (s : St) (h : Nat) (l : Loc) : (notifyCb s h l).done = s.done :=
  (notifyCb_frame s h l).2.2.2.2.2.2.2.2.2.2.2.2.2.2.2.1
@[simp] theorem notifyCb_ctxHold (s : St) (h : Nat) (l : Loc) : (notifyCb s h l).ctxHold = s.ctxHold :=
  (notifyCb_frame s h l).2.2.2.2.2.2.2.2.2.2.2.2.2.2.2.2.1
@[simp] theorem notifyCb_regs (s : St) (h : Nat) (l : Loc) : (notifyCb s h l).regs = s.regs :=
  (notifyCb_frame s h l).2.2.2.2.2.2.2.2.2.2.2.2.2.2.2.2.2.1
@[simp] theorem notifyCb_log (s : St) (h : Nat) (l : Loc) : (notifyCb s h l).log = s.log :=
  (notifyCb_frame s h l).2.2.2.2.2.2.2.2.2.2.2.2.2.2.2.2.2.2.1
@[simp] theorem notifyCb_rets (s : St) (h : Nat) (l : Loc) : (notifyCb s h l).rets = s.rets :=
  (notifyCb_frame s h l).2.2.2.2.2.2.2.2.2.2.2.2.2.2.2.2.2.2.2.1
@[simp] theorem notifyCb_why (s : St) (h : Nat) (l : Loc) : (notifyCb s h l).why = s.why :=
  (notifyCb_frame s h l).2.2.2.2.2.2.2.2.2.2.2.2.2.2.2.2.2.2.2.2.1
@[simp] theorem notifyCb_tid (s : St) (h : Nat) (l : Loc) (x : Nat) : ((notifyCb s h l).ev x).tid = (s.ev x).tid :=
  (notifyCb_frame s h l).2.2.2.2.2.2.2.2.2.2.2.2.2.2.2.2.2.2.2.2.2.1 x
@[simp] theorem notifyCb_hold (s : St) (h : Nat) (l : Loc) (x : Nat) : ((notifyCb s h l).ev x).hold = (s.ev x).hold :=
  (notifyCb_frame s h l).2.2.2.2.2.2.2.2.2.2.2.2.2.2.2.2.2.2.2.2.2.2.1 x
@[simp] theorem notifyCb_dead (s : St) (h : Nat) (l : Loc) (x : Nat) : ((notifyCb s h l).ev x).dead = (s.ev x).dead :=
  (notifyCb_frame s h l).2.2.2.2.2.2.2.2.2.2.2.2.2.2.2.2.2.2.2.2.2.2.2 x
@[simp] theorem setCb_loc (s : St) (h : Nat) : (setCb s h).loc = s.loc :=
  (setCb_frame s h).1
@[simp] theorem setCb_queue (s : St) (h : Nat) : (setCb s h).queue = s.queue :=
  (setCb_frame s h).2.1
@[simp] theorem setCb_waits (s : St) (h : Nat) : (setCb s h).waits = s.waits :=
  (setCb_frame s h).2.2.1
@[simp] theorem setCb_counter (s : St) (h : Nat) : (setCb s h).counter = s.counter :=
  (setCb_frame s h).2.2.2.1
@[simp] theorem setCb_evs (s : St) (h : Nat) : (setCb s h).evs = s.evs :=
  (setCb_frame s h).2.2.2.2.1
@[simp] theorem setCb_mgr (s : St) (h : Nat) : (setCb s h).mgr = s.mgr :=
  (setCb_frame s h).2.2.2.2.2.1
@[simp] theorem setCb_cl (s : St) (h : Nat) : (setCb s h).cl = s.cl :=
  (setCb_frame s h).2.2.2.2.2.2.1
@[simp] theorem setCb_core (s : St) (h : Nat) (x : Nat) : core ((setCb s h).ev x) = core (s.ev x) :=
  (setCb_frame s h).2.2.2.2.2.2.2.1 x
@[simp] theorem setCb_returned (s : St) (h : Nat) : (setCb s h).returned = s.returned :=
  (setCb_frame s h).2.2.2.2.2.2.2.2.1
@[simp] theorem setCb_issued (s : St) (h : Nat) : (setCb s h).issued = s.issued :=
  (setCb_frame s h).2.2.2.2.2.2.2.2.2.1
@[simp] theorem setCb_ccs (s : St) (h : Nat) : (setCb s h).ccs = s.ccs :=
  (setCb_frame s h).2.2.2.2.2.2.2.2.2.2.1
@[simp] theorem setCb_nq (s : St) (h : Nat) : (setCb s h).nq = s.nq :=
  (setCb_frame s h).2.2.2.2.2.2.2.2.2.2.2.1
@[simp] theorem setCb_ctxs (s : St) (h : Nat) : (setCb s h).ctxs = s.ctxs :=
  (setCb_frame s h).2.2.2.2.2.2.2.2.2.2.2.2.1
@[simp] theorem setCb_ub (s : St) (h : Nat) : (setCb s h).ub = s.ub :=
  (setCb_frame s h).2.2.2.2.2.2.2.2.2.2.2.2.2.1
@[simp] theorem setCb_inited (s : St) (h : Nat) : (setCb s h).inited = s.inited :=
  (setCb_frame s h).2.2.2.2.2.2.2.2.2.2.2.2.2.2.1
@[simp] theorem setCb_done (s : St) (h : Nat) : (setCb s h).done = s.done :=
  (setCb_frame s h).2.2.2.2.2.2.2.2.2.2.2.2.2.2.2.1
@[simp] theorem setCb_ctxHold (s : St) (h : Nat) : (setCb s h).ctxHold = s.ctxHold :=
  (setCb_frame s h).2.2.2.2.2.2.2.2.2.2.2.2.2.2.2.2.1
@[simp] theorem setCb_regs (s : St) (h : Nat) : (setCb s h).regs = s.regs + 1 :=
  (setCb_frame s h).2.2.2.2.2.2.2.2.2.2.2.2.2.2.2.2.2.1
@[simp] theorem setCb_log (s : St) (h : Nat) : (setCb s h).log = s.log :=
  (setCb_frame s h).2.2.2.2.2.2.2.2.2.2.2.2.2.2.2.2.2.2.1
@[simp] theorem setCb_rets (s : St) (h : Nat) : (setCb s h).rets = s.rets :=
  (setCb_frame s h).2.2.2.2.2.2.2.2.2.2.2.2.2.2.2.2.2.2.2.1
@[simp] theorem setCb_why (s : St) (h : Nat) : (setCb s h).why = s.why :=
  (setCb_frame s h).2.2.2.2.2.2.2.2.2.2.2.2.2.2.2.2.2.2.2.2.1
@[simp] theorem setCb_tid (s : St) (h : Nat) (x : Nat) : ((setCb s h).ev x).tid = (s.ev x).tid :=
  (setCb_frame s h).2.2.2.2.2.2.2.2.2.2.2.2.2.2.2.2.2.2.2.2.2.1 x
@[simp] theorem setCb_hold (s : St) (h : Nat) (x : Nat) : ((setCb s h).ev x).hold = (s.ev x).hold :=
  (setCb_frame s h).2.2.2.2.2.2.2.2.2.2.2.2.2.2.2.2.2.2.2.2.2.2.1 x
@[simp] theorem setCb_dead (s : St) (h : Nat) (x : Nat) : ((setCb s h).ev x).dead = (s.ev x).dead :=
  (setCb_frame s h).2.2.2.2.2.2.2.2.2.2.2.2.2.2.2.2.2.2.2.2.2.2.2 x
@[simp] theorem dropCtx_loc (s : St) (c : Nat) (a : Actor) : (dropCtx s c a).loc = s.loc :=
  (dropCtx_frame s c a).1
@[simp] theorem dropCtx_queue (s : St) (c : Nat) (a : Actor) : (dropCtx s c a).queue = s.queue :=
  (dropCtx_frame s c a).2.1
@[simp] theorem dropCtx_waits (s : St) (c : Nat) (a : Actor) : (dropCtx s c a).waits = s.waits :=
  (dropCtx_frame s c a).2.2.1
@[simp] theorem dropCtx_counter (s : St) (c : Nat) (a : Actor) : (dropCtx s c a).counter = s.counter :=
  (dropCtx_frame s c a).2.2.2.1
@[simp] theorem dropCtx_evs (s : St) (c : Nat) (a : Actor) : (dropCtx s c a).evs = s.evs :=
  (dropCtx_frame s c a).2.2.2.2.1
@[simp] theorem dropCtx_mgr (s : St) (c : Nat) (a : Actor) : (dropCtx s c a).mgr = s.mgr :=
  (dropCtx_frame s c a).2.2.2.2.2.1
@[simp] theorem dropCtx_cl (s : St) (c : Nat) (a : Actor) : (dropCtx s c a).cl = s.cl :=
  (dropCtx_frame s c a).2.2.2.2.2.2.1
@[simp] theorem dropCtx_ev (s : St) (c : Nat) (a : Actor) : (dropCtx s c a).ev = s.ev :=
  (dropCtx_frame s c a).2.2.2.2.2.2.2.1
@[simp] theorem dropCtx_returned (s : St) (c : Nat) (a : Actor) : (dropCtx s c a).returned = s.returned :=
  (dropCtx_frame s c a).2.2.2.2.2.2.2.2.1
@[simp] theorem dropCtx_issued (s : St) (c : Nat) (a : Actor) : (dropCtx s c a).issued = s.issued :=
  (dropCtx_frame s c a).2.2.2.2.2.2.2.2.2.1
@[simp] theorem dropCtx_ccs (s : St) (c : Nat) (a : Actor) : (dropCtx s c a).ccs = s.ccs :=
  (dropCtx_frame s c a).2.2.2.2.2.2.2.2.2.2.1
@[simp] theorem dropCtx_nq (s : St) (c : Nat) (a : Actor) : (dropCtx s c a).nq = s.nq :=
  (dropCtx_frame s c a).2.2.2.2.2.2.2.2.2.2.2.1
@[simp] theorem dropCtx_ctxs (s : St) (c : Nat) (a : Actor) : (dropCtx s c a).ctxs = s.ctxs :=
  (dropCtx_frame s c a).2.2.2.2.2.2.2.2.2.2.2.2.1
@[simp] theorem dropCtx_inited (s : St) (c : Nat) (a : Actor) : (dropCtx s c a).inited = s.inited :=
  (dropCtx_frame s c a).2.2.2.2.2.2.2.2.2.2.2.2.2.1
@[simp] theorem dropCtx_log (s : St) (c : Nat) (a : Actor) : (dropCtx s c a).log = s.log :=
  (dropCtx_frame s c a).2.2.2.2.2.2.2.2.2.2.2.2.2.2.1
@[simp] theorem dropCtx_regs (s : St) (c : Nat) (a : Actor) : (dropCtx s c a).regs = s.regs :=
  (dropCtx_frame s c a).2.2.2.2.2.2.2.2.2.2.2.2.2.2.2.1
@[simp] theorem dropCtx_rets (s : St) (c : Nat) (a : Actor) : (dropCtx s c a).rets = s.rets :=
  (dropCtx_frame s c a).2.2.2.2.2.2.2.2.2.2.2.2.2.2.2.2.1
@[simp] theorem dropCtx_why (s : St) (c : Nat) (a : Actor) : (dropCtx s c a).why = s.why :=
  (dropCtx_frame s c a).2.2.2.2.2.2.2.2.2.2.2.2.2.2.2.2.2.1
@[simp] theorem dropCtx_cbs (s : St) (c : Nat) (a : Actor) : (dropCtx s c a).cbs = s.cbs :=
  (dropCtx_frame s c a).2.2.2.2.2.2.2.2.2.2.2.2.2.2.2.2.2.2
@[simp] theorem setEv_counter (s : St) (h : Nat) (e : Ev) (l : Loc) : (setEv s h e l).counter = s.counter := rfl
@[simp] theorem setEv_inited (s : St) (h : Nat) (e : Ev) (l : Loc) : (setEv s h e l).inited = s.inited := rfl
@[simp] theorem setEv_ctxs (s : St) (h : Nat) (e : Ev) (l : Loc) : (setEv s h e l).ctxs = s.ctxs := rfl
@[simp] theorem setEv_nq (s : St) (h : Nat) (e : Ev) (l : Loc) : (setEv s h e l).nq = s.nq := rfl
@[simp] theorem setEv_done (s : St) (h : Nat) (e : Ev) (l : Loc) : (setEv s h e l).done = s.done := rfl
@[simp] theorem setEv_ctxHold (s : St) (h : Nat) (e : Ev) (l : Loc) : (setEv s h e l).ctxHold = s.ctxHold := rfl
@[simp] theorem setEv_queue (s : St) (h : Nat) (e : Ev) (l : Loc) : (setEv s h e l).queue = s.queue := rfl
@[simp] theorem setEv_mgr (s : St) (h : Nat) (e : Ev) (l : Loc) : (setEv s h e l).mgr = s.mgr := rfl
@[simp] theorem setEv_ccs (s : St) (h : Nat) (e : Ev) (l : Loc) : (setEv s h e l).ccs = s.ccs := rfl
@[simp] theorem setEv_evs (s : St) (h : Nat) (e : Ev) (l : Loc) : (setEv s h e l).evs = s.evs := rfl
theorem setEv_ev (s : St) (h : Nat) (e : Ev) (l : Loc) : (setEv s h e l).ev = upd s.ev h e := rfl
@[simp] theorem setEv_cl (s : St) (h : Nat) (e : Ev) (l : Loc) : (setEv s h e l).cl = s.cl := rfl
@[simp] theorem setEv_ub (s : St) (h : Nat) (e : Ev) (l : Loc) : (setEv s h e l).ub = s.ub := rfl
@[simp] theorem setEv_regs (s : St) (h : Nat) (e : Ev) (l : Loc) : (setEv s h e l).regs = s.regs := rfl
@[simp] theorem setEv_loc (s : St) (h : Nat) (e : Ev) (l : Loc) : (setEv s h e l).loc = upd s.loc h l := rfl
@[simp] theorem setEv_waits (s : St) (h : Nat) (e : Ev) (l : Loc) : (setEv s h e l).waits = s.waits := rfl
@[simp] theorem setEv_issued (s : St) (h : Nat) (e : Ev) (l : Loc) : (setEv s h e l).issued = s.issued := rfl
@[simp] theorem setEv_returned (s : St) (h : Nat) (e : Ev) (l : Loc) : (setEv s h e l).returned = s.returned := rfl
@[simp] theorem setEv_log (s : St) (h : Nat) (e : Ev) (l : Loc) : (setEv s h e l).log = s.log := rfl
@[simp] theorem setEv_cbs (s : St) (h : Nat) (e : Ev) (l : Loc) : (setEv s h e l).cbs = s.cbs := rfl
@[simp] theorem setEv_rets (s : St) (h : Nat) (e : Ev) (l : Loc) : (setEv s h e l).rets = s.rets := rfl
@[simp] theorem setEv_why (s : St) (h : Nat) (e : Ev) (l : Loc) : (setEv s h e l).why = s.why := rfl
@[simp] theorem obs_counter (s : St) (o : Obs) : (obs s o).counter = s.counter := rfl
@[simp] theorem obs_inited (s : St) (o : Obs) : (obs s o).inited = s.inited := rfl
@[simp] theorem obs_ctxs (s : St) (o : Obs) : (obs s o).ctxs = s.ctxs := rfl
@[simp] theorem obs_nq (s : St) (o : Obs) : (obs s o).nq = s.nq := rfl
@[simp] theorem obs_done (s : St) (o : Obs) : (obs s o).done = s.done := rfl
@[simp] theorem obs_ctxHold (s : St) (o : Obs) : (obs s o).ctxHold = s.ctxHold := rfl
@[simp] theorem obs_queue (s : St) (o : Obs) : (obs s o).queue = s.queue := rfl
@[simp] theorem obs_mgr (s : St) (o : Obs) : (obs s o).mgr = s.mgr := rfl
@[simp] theorem obs_ccs (s : St) (o : Obs) : (obs s o).ccs = s.ccs := rfl
@[simp] theorem obs_evs (s : St) (o : Obs) : (obs s o).evs = s.evs := rfl
@[simp] theorem obs_ev (s : St) (o : Obs) : (obs s o).ev = s.ev := rfl
@[simp] theorem obs_cl (s : St) (o : Obs) : (obs s o).cl = s.cl := rfl
@[simp] theorem obs_ub (s : St) (o : Obs) : (obs s o).ub = s.ub := rfl
@[simp] theorem obs_regs (s : St) (o : Obs) : (obs s o).regs = s.regs := rfl
@[simp] theorem obs_loc (s : St) (o : Obs) : (obs s o).loc = s.loc := rfl
@[simp] theorem obs_waits (s : St) (o : Obs) : (obs s o).waits = s.waits := rfl
@[simp] theorem obs_issued (s : St) (o : Obs) : (obs s o).issued = s.issued := rfl
@[simp] theorem obs_returned (s : St) (o : Obs) : (obs s o).returned = s.returned := rfl
@[simp] theorem obs_log (s : St) (o : Obs) : (obs s o).log = o :: s.log := rfl
@[simp] theorem obs_cbs (s : St) (o : Obs) : (obs s o).cbs = s.cbs := rfl
@[simp] theorem obs_rets (s : St) (o : Obs) : (obs s o).rets = s.rets := rfl
@[simp] theorem obs_why (s : St) (o : Obs) : (obs s o).why = s.why := rfl
@[simp] theorem obsCb_counter (s : St) (o : CbObs) : (obsCb s o).counter = s.counter := rfl
@[simp] theorem obsCb_inited (s : St) (o : CbObs) : (obsCb s o).inited = s.inited := rfl
@[simp] theorem obsCb_ctxs (s : St) (o : CbObs) : (obsCb s o).ctxs = s.ctxs := rfl
@[simp] theorem obsCb_nq (s : St) (o : CbObs) : (obsCb s o).nq = s.nq := rfl
@[simp] theorem obsCb_done (s : St) (o : CbObs) : (obsCb s o).done = s.done := rfl
@[simp] theorem obsCb_ctxHold (s : St) (o : CbObs) : (obsCb s o).ctxHold = s.ctxHold := rfl
@[simp] theorem obsCb_queue (s : St) (o : CbObs) : (obsCb s o).queue = s.queue := rfl
@[simp] theorem obsCb_mgr (s : St) (o : CbObs) : (obsCb s o).mgr = s.mgr := rfl
@[simp] theorem obsCb_ccs (s : St) (o : CbObs) : (obsCb s o).ccs = s.ccs := rfl
@[simp] theorem obsCb_evs (s : St) (o : CbObs) : (obsCb s o).evs = s.evs := rfl
@[simp] theorem obsCb_ev (s : St) (o : CbObs) : (obsCb s o).ev = s.ev := rfl
@[simp] theorem obsCb_cl (s : St) (o : CbObs) : (obsCb s o).cl = s.cl := rfl
@[simp] theorem obsCb_ub (s : St) (o : CbObs) : (obsCb s o).ub = s.ub := rfl
@[simp] theorem obsCb_regs (s : St) (o : CbObs) : (obsCb s o).regs = s.regs := rfl
@[simp] theorem obsCb_loc (s : St) (o : CbObs) : (obsCb s o).loc = s.loc := rfl
@[simp] theorem obsCb_waits (s : St) (o : CbObs) : (obsCb s o).waits = s.waits := rfl
@[simp] theorem obsCb_issued (s : St) (o : CbObs) : (obsCb s o).issued = s.issued := rfl
@[simp] theorem obsCb_returned (s : St) (o : CbObs) : (obsCb s o).returned = s.returned := rfl
@[simp] theorem obsCb_log (s : St) (o : CbObs) : (obsCb s o).log = s.log := rfl
@[simp] theorem obsCb_cbs (s : St) (o : CbObs) : (obsCb s o).cbs = o :: s.cbs := rfl
@[simp] theorem obsCb_rets (s : St) (o : CbObs) : (obsCb s o).rets = s.rets := rfl
@[simp] theorem obsCb_why (s : St) (o : CbObs) : (obsCb s o).why = s.why := rfl
@[simp] theorem setWhy_counter (s : St) (h : Nat) (w : Why) : (setWhy s h w).counter = s.counter := rfl
@[simp] theorem setWhy_inited (s : St) (h : Nat) (w : Why) : (setWhy s h w).inited = s.inited := rfl
@[simp] theorem setWhy_ctxs (s : St) (h : Nat) (w : Why) : (setWhy s h w).ctxs = s.ctxs := rfl
@[simp] theorem setWhy_nq (s : St) (h : Nat) (w : Why) : (setWhy s h w).nq = s.nq := rfl
@[simp] theorem setWhy_done (s : St) (h : Nat) (w : Why) : (setWhy s h w).done = s.done := rfl
@[simp] theorem setWhy_ctxHold (s : St) (h : Nat) (w : Why) : (setWhy s h w).ctxHold = s.ctxHold := rfl
@[simp] theorem setWhy_queue (s : St) (h : Nat) (w : Why) : (setWhy s h w).queue = s.queue := rfl
@[simp] theorem setWhy_mgr (s : St) (h : Nat) (w : Why) : (setWhy s h w).mgr = s.mgr := rfl
@[simp] theorem setWhy_ccs (s : St) (h : Nat) (w : Why) : (setWhy s h w).ccs = s.ccs := rfl
@[simp] theorem setWhy_evs (s : St) (h : Nat) (w : Why) : (setWhy s h w).evs = s.evs := rfl
@[simp] theorem setWhy_ev (s : St) (h : Nat) (w : Why) : (setWhy s h w).ev = s.ev := rfl
@[simp] theorem setWhy_cl (s : St) (h : Nat) (w : Why) : (setWhy s h w).cl = s.cl := rfl
@[simp] theorem setWhy_ub (s : St) (h : Nat) (w : Why) : (setWhy s h w).ub = s.ub := rfl
@[simp] theorem setWhy_regs (s : St) (h : Nat) (w : Why) : (setWhy s h w).regs = s.regs := rfl
@[simp] theorem setWhy_loc (s : St) (h : Nat) (w : Why) : (setWhy s h w).loc = s.loc := rfl
@[simp] theorem setWhy_waits (s : St) (h : Nat) (w : Why) : (setWhy s h w).waits = s.waits := rfl
@[simp] theorem setWhy_issued (s : St) (h : Nat) (w : Why) : (setWhy s h w).issued = s.issued := rfl
@[simp] theorem setWhy_returned (s : St) (h : Nat) (w : Why) : (setWhy s h w).returned = s.returned := rfl
@[simp] theorem setWhy_log (s : St) (h : Nat) (w : Why) : (setWhy s h w).log = s.log := rfl
@[simp] theorem setWhy_cbs (s : St) (h : Nat) (w : Why) : (setWhy s h w).cbs = s.cbs := rfl
@[simp] theorem setWhy_rets (s : St) (h : Nat) (w : Why) : (setWhy s h w).rets = s.rets := rfl
@[simp] theorem setWhy_why (s : St) (h : Nat) (w : Why) : (setWhy s h w).why = upd s.why h (some w) := rfl
@[simp] theorem setM_counter (s : St) (c t : Nat) (p : MPc) : (setM s c t p).counter = s.counter := rfl
@[simp] theorem setM_inited (s : St) (c t : Nat) (p : MPc) : (setM s c t p).inited = s.inited := rfl
@[simp] theorem setM_ctxs (s : St) (c t : Nat) (p : MPc) : (setM s c t p).ctxs = s.ctxs := rfl
@[simp] theorem setM_nq (s : St) (c t : Nat) (p : MPc) : (setM s c t p).nq = s.nq := rfl
@[simp] theorem setM_done (s : St) (c t : Nat) (p : MPc) : (setM s c t p).done = s.done := rfl
@[simp] theorem setM_ctxHold (s : St) (c t : Nat) (p : MPc) : (setM s c t p).ctxHold = s.ctxHold := rfl
@[simp] theorem setM_queue (s : St) (c t : Nat) (p : MPc) : (setM s c t p).queue = s.queue := rfl
@[simp] theorem setM_mgr (s : St) (c t : Nat) (p : MPc) : (setM s c t p).mgr = upd2 s.mgr c t p := rfl
@[simp] theorem setM_ccs (s : St) (c t : Nat) (p : MPc) : (setM s c t p).ccs = s.ccs := rfl
@[simp] theorem setM_evs (s : St) (c t : Nat) (p : MPc) : (setM s c t p).evs = s.evs := rfl
@[simp] theorem setM_ev (s : St) (c t : Nat) (p : MPc) : (setM s c t p).ev = s.ev := rfl
@[simp] theorem setM_cl (s : St) (c t : Nat) (p : MPc) : (setM s c t p).cl = s.cl := rfl
@[simp] theorem setM_ub (s : St) (c t : Nat) (p : MPc) : (setM s c t p).ub = s.ub := rfl
@[simp] theorem setM_regs (s : St) (c t : Nat) (p : MPc) : (setM s c t p).regs = s.regs := rfl
@[simp] theorem setM_loc (s : St) (c t : Nat) (p : MPc) : (setM s c t p).loc = s.loc := rfl
@[simp] theorem setM_waits (s : St) (c t : Nat) (p : MPc) : (setM s c t p).waits = s.waits := rfl
@[simp] theorem setM_issued (s : St) (c t : Nat) (p : MPc) : (setM s c t p).issued = s.issued := rfl
@[simp] theorem setM_returned (s : St) (c t : Nat) (p : MPc) : (setM s c t p).returned = s.returned := rfl
@[simp] theorem setM_log (s : St) (c t : Nat) (p : MPc) : (setM s c t p).log = s.log := rfl
@[simp] theorem setM_cbs (s : St) (c t : Nat) (p : MPc) : (setM s c t p).cbs = s.cbs := rfl
@[simp] theorem setM_rets (s : St) (c t : Nat) (p : MPc) : (setM s c t p).rets = s.rets := rfl
@[simp] theorem setM_why (s : St) (c t : Nat) (p : MPc) : (setM s c t p).why = s.why := rfl
@[simp] theorem setC_counter (s : St) (i : Nat) (p : CPc) : (setC s i p).counter = s.counter := rfl
@[simp] theorem setC_inited (s : St) (i : Nat) (p : CPc) : (setC s i p).inited = s.inited := rfl
@[simp] theorem setC_ctxs (s : St) (i : Nat) (p : CPc) : (setC s i p).ctxs = s.ctxs := rfl
@[simp] theorem setC_nq (s : St) (i : Nat) (p : CPc) : (setC s i p).nq = s.nq := rfl
@[simp] theorem setC_done (s : St) (i : Nat) (p : CPc) : (setC s i p).done = s.done := rfl
@[simp] theorem setC_ctxHold (s : St) (i : Nat) (p : CPc) : (setC s i p).ctxHold = s.ctxHold := rfl
@[simp] theorem setC_queue (s : St) (i : Nat) (p : CPc) : (setC s i p).queue = s.queue := rfl
@[simp] theorem setC_mgr (s : St) (i : Nat) (p : CPc) : (setC s i p).mgr = s.mgr := rfl
@[simp] theorem setC_ccs (s : St) (i : Nat) (p : CPc) : (setC s i p).ccs = s.ccs := rfl
@[simp] theorem setC_evs (s : St) (i : Nat) (p : CPc) : (setC s i p).evs = s.evs := rfl
@[simp] theorem setC_ev (s : St) (i : Nat) (p : CPc) : (setC s i p).ev = s.ev := rfl
@[simp] theorem setC_cl (s : St) (i : Nat) (p : CPc) : (setC s i p).cl = upd s.cl i p := rfl
@[simp] theorem setC_ub (s : St) (i : Nat) (p : CPc) : (setC s i p).ub = s.ub := rfl
@[simp] theorem setC_regs (s : St) (i : Nat) (p : CPc) : (setC s i p).regs = s.regs := rfl
@[simp] theorem setC_loc (s : St) (i : Nat) (p : CPc) : (setC s i p).loc = s.loc := rfl
@[simp] theorem setC_waits (s : St) (i : Nat) (p : CPc) : (setC s i p).waits = s.waits := rfl
@[simp] theorem setC_issued (s : St) (i : Nat) (p : CPc) : (setC s i p).issued = s.issued := rfl
@[simp] theorem setC_returned (s : St) (i : Nat) (p : CPc) : (setC s i p).returned = s.returned := rfl
@[simp] theorem setC_log (s : St) (i : Nat) (p : CPc) : (setC s i p).log = s.log := rfl
@[simp] theorem setC_cbs (s : St) (i : Nat) (p : CPc) : (setC s i p).cbs = s.cbs := rfl
@[simp] theorem setC_rets (s : St) (i : Nat) (p : CPc) : (setC s i p).rets = s.rets := rfl
@[simp] theorem setC_why (s : St) (i : Nat) (p : CPc) : (setC s i p).why = s.why := rfl
@[simp] theorem ret_counter (s : St) (i : Nat) (k : Call) (r : Int) : (ret s i k r).counter = s.counter := rfl
@[simp] theorem ret_inited (s : St) (i : Nat) (k : Call) (r : Int) : (ret s i k r).inited = s.inited := rfl
@[simp] theorem ret_ctxs (s : St) (i : Nat) (k : Call) (r : Int) : (ret s i k r).ctxs = s.ctxs := rfl
@[simp] theorem ret_nq (s : St) (i : Nat) (k : Call) (r : Int) : (ret s i k r).nq = s.nq := rfl
@[simp] theorem ret_done (s : St) (i : Nat) (k : Call) (r : Int) : (ret s i k r).done = s.done := rfl
@[simp] theorem ret_ctxHold (s : St) (i : Nat) (k : Call) (r : Int) : (ret s i k r).ctxHold = s.ctxHold := rfl
@[simp] theorem ret_queue (s : St) (i : Nat) (k : Call) (r : Int) : (ret s i k r).queue = s.queue := rfl
@[simp] theorem ret_mgr (s : St) (i : Nat) (k : Call) (r : Int) : (ret s i k r).mgr = s.mgr := rfl
@[simp] theorem ret_ccs (s : St) (i : Nat) (k : Call) (r : Int) : (ret s i k r).ccs = s.ccs := rfl
@[simp] theorem ret_evs (s : St) (i : Nat) (k : Call) (r : Int) : (ret s i k r).evs = s.evs := rfl
@[simp] theorem ret_ev (s : St) (i : Nat) (k : Call) (r : Int) : (ret s i k r).ev = s.ev := rfl
@[simp] theorem ret_cl (s : St) (i : Nat) (k : Call) (r : Int) : (ret s i k r).cl = upd s.cl i .idle := rfl
@[simp] theorem ret_ub (s : St) (i : Nat) (k : Call) (r : Int) : (ret s i k r).ub = s.ub := rfl
@[simp] theorem ret_regs (s : St) (i : Nat) (k : Call) (r : Int) : (ret s i k r).regs = s.regs := rfl
@[simp] theorem ret_loc (s : St) (i : Nat) (k : Call) (r : Int) : (ret s i k r).loc = s.loc := rfl
@[simp] theorem ret_waits (s : St) (i : Nat) (k : Call) (r : Int) : (ret s i k r).waits = s.waits := rfl
@[simp] theorem ret_issued (s : St) (i : Nat) (k : Call) (r : Int) : (ret s i k r).issued = s.issued := rfl
@[simp] theorem ret_returned (s : St) (i : Nat) (k : Call) (r : Int) : (ret s i k r).returned = s.returned := rfl
@[simp] theorem ret_log (s : St) (i : Nat) (k : Call) (r : Int) : (ret s i k r).log = s.log := rfl
@[simp] theorem ret_cbs (s : St) (i : Nat) (k : Call) (r : Int) : (ret s i k r).cbs = s.cbs := rfl
@[simp] theorem ret_rets (s : St) (i : Nat) (k : Call) (r : Int) : (ret s i k r).rets = (i, k, r) :: s.rets := rfl
@[simp] theorem ret_why (s : St) (i : Nat) (k : Call) (r : Int) : (ret s i k r).why = s.why := rfl
@[simp] theorem bad_counter (s : St) : (bad s).counter = s.counter := rfl
@[simp] theorem bad_inited (s : St) : (bad s).inited = s.inited := rfl
@[simp] theorem bad_ctxs (s : St) : (bad s).ctxs = s.ctxs := rfl
@[simp] theorem bad_nq (s : St) : (bad s).nq = s.nq := rfl
@[simp] theorem bad_done (s : St) : (bad s).done = s.done := rfl
@[simp] theorem bad_ctxHold (s : St) : (bad s).ctxHold = s.ctxHold := rfl
@[simp] theorem bad_queue (s : St) : (bad s).queue = s.queue := rfl
@[simp] theorem bad_mgr (s : St) : (bad s).mgr = s.mgr := rfl
@[simp] theorem bad_ccs (s : St) : (bad s).ccs = s.ccs := rfl
@[simp] theorem bad_evs (s : St) : (bad s).evs = s.evs := rfl
@[simp] theorem bad_ev (s : St) : (bad s).ev = s.ev := rfl
@[simp] theorem bad_cl (s : St) : (bad s).cl = s.cl := rfl
@[simp] theorem bad_ub (s : St) : (bad s).ub = true := rfl
@[simp] theorem bad_regs (s : St) : (bad s).regs = s.regs := rfl
@[simp] theorem bad_loc (s : St) : (bad s).loc = s.loc := rfl
@[simp] theorem bad_waits (s : St) : (bad s).waits = s.waits := rfl
@[simp] theorem bad_issued (s : St) : (bad s).issued = s.issued := rfl
@[simp] theorem bad_returned (s : St) : (bad s).returned = s.returned := rfl
@[simp] theorem bad_log (s : St) : (bad s).log = s.log := rfl
@[simp] theorem bad_cbs (s : St) : (bad s).cbs = s.cbs := rfl
@[simp] theorem bad_rets (s : St) : (bad s).rets = s.rets := rfl
@[simp] theorem bad_why (s : St) : (bad s).why = s.why := rfl
@[simp] theorem holdEv_counter (s : St) (h : Nat) (a : Actor) : (holdEv s h a).counter = s.counter := rfl
@[simp] theorem holdEv_inited (s : St) (h : Nat) (a : Actor) : (holdEv s h a).inited = s.inited := rfl
@[simp] theorem holdEv_ctxs (s : St) (h : Nat) (a : Actor) : (holdEv s h a).ctxs = s.ctxs := rfl
@[simp] theorem holdEv_nq (s : St) (h : Nat) (a : Actor) : (holdEv s h a).nq = s.nq := rfl
@[simp] theorem holdEv_done (s : St) (h : Nat) (a : Actor) : (holdEv s h a).done = s.done := rfl
@[simp] theorem holdEv_ctxHold (s : St) (h : Nat) (a : Actor) : (holdEv s h a).ctxHold = s.ctxHold := rfl
@[simp] theorem holdEv_queue (s : St) (h : Nat) (a : Actor) : (holdEv s h a).queue = s.queue := rfl
@[simp] theorem holdEv_mgr (s : St) (h : Nat) (a : Actor) : (holdEv s h a).mgr = s.mgr := rfl
@[simp] theorem holdEv_ccs (s : St) (h : Nat) (a : Actor) : (holdEv s h a).ccs = s.ccs := rfl
@[simp] theorem holdEv_evs (s : St) (h : Nat) (a : Actor) : (holdEv s h a).evs = s.evs := rfl
theorem holdEv_ev (s : St) (h : Nat) (a : Actor) : (holdEv s h a).ev = upd s.ev h { s.ev h with hold := a :: (s.ev h).hold } := rfl
@[simp] theorem holdEv_cl (s : St) (h : Nat) (a : Actor) : (holdEv s h a).cl = s.cl := rfl
@[simp] theorem holdEv_ub (s : St) (h : Nat) (a : Actor) : (holdEv s h a).ub = s.ub := rfl
@[simp] theorem holdEv_regs (s : St) (h : Nat) (a : Actor) : (holdEv s h a).regs = s.regs := rfl
@[simp] theorem holdEv_loc (s : St) (h : Nat) (a : Actor) : (holdEv s h a).loc = s.loc := rfl
@[simp] theorem holdEv_waits (s : St) (h : Nat) (a : Actor) : (holdEv s h a).waits = s.waits := rfl
@[simp] theorem holdEv_issued (s : St) (h : Nat) (a : Actor) : (holdEv s h a).issued = s.issued := rfl
@[simp] theorem holdEv_returned (s : St) (h : Nat) (a : Actor) : (holdEv s h a).returned = s.returned := rfl
@[simp] theorem holdEv_log (s : St) (h : Nat) (a : Actor) : (holdEv s h a).log = s.log := rfl
@[simp] theorem holdEv_cbs (s : St) (h : Nat) (a : Actor) : (holdEv s h a).cbs = s.cbs := rfl
@[simp] theorem holdEv_rets (s : St) (h : Nat) (a : Actor) : (holdEv s h a).rets = s.rets := rfl
@[simp] theorem holdEv_why (s : St) (h : Nat) (a : Actor) : (holdEv s h a).why = s.why := rfl
@[simp] theorem holdCtx_counter (s : St) (c : Nat) (a : Actor) : (holdCtx s c a).counter = s.counter := rfl
@[simp] theorem holdCtx_inited (s : St) (c : Nat) (a : Actor) : (holdCtx s c a).inited = s.inited := rfl
@[simp] theorem holdCtx_ctxs (s : St) (c : Nat) (a : Actor) : (holdCtx s c a).ctxs = s.ctxs := rfl
@[simp] theorem holdCtx_nq (s : St) (c : Nat) (a : Actor) : (holdCtx s c a).nq = s.nq := rfl
@[simp] theorem holdCtx_done (s : St) (c : Nat) (a : Actor) : (holdCtx s c a).done = s.done := rfl
@[simp] theorem holdCtx_ctxHold (s : St) (c : Nat) (a : Actor) : (holdCtx s c a).ctxHold = upd s.ctxHold c (a :: s.ctxHold c) := rfl
@[simp] theorem holdCtx_queue (s : St) (c : Nat) (a : Actor) : (holdCtx s c a).queue = s.queue := rfl
@[simp] theorem holdCtx_mgr (s : St) (c : Nat) (a : Actor) : (holdCtx s c a).mgr = s.mgr := rfl
@[simp] theorem holdCtx_ccs (s : St) (c : Nat) (a : Actor) : (holdCtx s c a).ccs = s.ccs := rfl
@[simp] theorem holdCtx_evs (s : St) (c : Nat) (a : Actor) : (holdCtx s c a).evs = s.evs := rfl
@[simp] theorem holdCtx_ev (s : St) (c : Nat) (a : Actor) : (holdCtx s c a).ev = s.ev := rfl
@[simp] theorem holdCtx_cl (s : St) (c : Nat) (a : Actor) : (holdCtx s c a).cl = s.cl := rfl
@[simp] theorem holdCtx_ub (s : St) (c : Nat) (a : Actor) : (holdCtx s c a).ub = s.ub := rfl
@[simp] theorem holdCtx_regs (s : St) (c : Nat) (a : Actor) : (holdCtx s c a).regs = s.regs := rfl
@[simp] theorem holdCtx_loc (s : St) (c : Nat) (a : Actor) : (holdCtx s c a).loc = s.loc := rfl
@[simp] theorem holdCtx_waits (s : St) (c : Nat) (a : Actor) : (holdCtx s c a).waits = s.waits := rfl
@[simp] theorem holdCtx_issued (s : St) (c : Nat) (a : Actor) : (holdCtx s c a).issued = s.issued := rfl
@[simp] theorem holdCtx_returned (s : St) (c : Nat) (a : Actor) : (holdCtx s c a).returned = s.returned := rfl
@[simp] theorem holdCtx_log (s : St) (c : Nat) (a : Actor) : (holdCtx s c a).log = s.log := rfl
@[simp] theorem holdCtx_cbs (s : St) (c : Nat) (a : Actor) : (holdCtx s c a).cbs = s.cbs := rfl
@[simp] theorem holdCtx_rets (s : St) (c : Nat) (a : Actor) : (holdCtx s c a).rets = s.rets := rfl
@[simp] theorem holdCtx_why (s : St) (c : Nat) (a : Actor) : (holdCtx s c a).why = s.why := rfl

attribute [simp] holdEv_core

@[simp] theorem setEv_core (s : St) (h : Nat) (e : Ev) (l : Loc) (x : Nat) :
    core ((setEv s h e l).ev x) = if x = h then core e else core (s.ev x) := by
  unfold setEv upd; simp only; split <;> rfl

theorem setEv_evSame (s : St) (h : Nat) (e : Ev) (l : Loc) : (setEv s h e l).ev h = e := by simp [setEv]

theorem setEv_evOther (s : St) (h : Nat) (e : Ev) (l : Loc) (x : Nat) (hx : x ≠ h) : (setEv s h e l).ev x = s.ev x := by
  simp [setEv, upd_other _ _ _ _ hx]

end Mcut.Api
