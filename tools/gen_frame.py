#!/usr/bin/env python3
"""Generates lean/Verif/Frame.lean: which fields each critical section leaves alone."""
F="cap wOne wAll wRx uq bqs tail sc rcv lag rang ws cells bq resp lst objs log".split()
out=[]
out.append("import Verif.Model\n/-! Generated by tools/gen_frame.py: for every critical section, the fields it does not change. -/\n\nset_option linter.unusedSimpArgs false\n\nnamespace Xtra\n")
def emit(name, args, call, changed, proof):
    for f in F:
        if f in changed.split(): continue
        out.append(f"@[simp] theorem World.{name}_{f} (w : World) {args} : ({call}).{f} = w.{f} := by\n  {proof}")
def emitOpt(name, args, call, changed, proof):
    for f in F:
        if f in changed.split(): continue
        out.append(f"theorem World.{name}_{f} {{w : World}} {args} {{m : Msg}} {{w' : World}} (h : {call} = some (m, w')) : w'.{f} = w.{f} := by\n  {proof}")
rfl="rfl"
emit("setObj","(i : Nat) (o : Obj)","w.setObj i o","objs",rfl)
out.append("@[simp] theorem World.setObj_objs (w : World) (i : Nat) (o : Obj) : (w.setObj i o).objs = w.objs.set i o := rfl")
emit("addObj","(o : Obj)","w.addObj o","objs",rfl)
out.append("@[simp] theorem World.addObj_objs (w : World) (o : Obj) : (w.addObj o).objs = w.objs ++ [o] := rfl")
emit("ev","(e : Ev)","w.ev e","log",rfl)
out.append("@[simp] theorem World.ev_log (w : World) (e : Ev) : (w.ev e).log = e :: w.log := rfl")
emit("kill","(m : Msg)","w.kill m","resp log",rfl)
out.append("@[simp] theorem World.kill_resp (w : World) (m : Msg) : (w.kill m).resp = w.resp.modify m.id Resp.interrupt := rfl")
out.append("@[simp] theorem World.kill_log (w : World) (m : Msg) : (w.kill m).log = .dropped m.id :: w.log := rfl")
emit("yieldMsg","(r b : Nat) (am : AMsg)","w.yieldMsg r b am","objs log",rfl)
out.append("@[simp] theorem World.yieldMsg_objs (w : World) (r b : Nat) (am : AMsg) : (w.yieldMsg r b am).objs = w.objs.set r (.message b am) := rfl")
out.append("@[simp] theorem World.yieldMsg_log (w : World) (r b : Nat) (am : AMsg) : (w.yieldMsg r b am).log = .recv r b am :: w.log := rfl")
emit("incBq","(b : Nat)","w.incBq b","bq","unfold World.incBq; split <;> rfl")
emit("decBq","(b : Nat)","w.decBq b","bq","unfold World.decBq; split\n  · split <;> rfl\n  · rfl")
emit("addTx","(rc : Rc)","w.addTx rc","sc",rfl)
out.append("@[simp] theorem World.addTx_sc (w : World) (rc : Rc) : (w.addTx rc).sc = if rc.isStrong then w.sc + 1 else w.sc := rfl")
emit("noteLate","(m : Msg)","w.noteLate m","log",rfl)
emit("killAll","(ms : List Msg)","w.killAll ms","resp log","induction ms generalizing w with\n  | nil => rfl\n  | cons m ms ih => simp [World.killAll, ih]")
emit("closeHandle","(h : Nat)","w.closeHandle h","ws resp log","unfold World.closeHandle; split <;> rfl")
emit("closeHandles","(hs : List Nat)","w.closeHandles hs","ws resp log","induction hs generalizing w with\n  | nil => rfl\n  | cons m ms ih => simp [World.closeHandles, ih]")
emit("shutTx","","w.shutTx","lst rang uq bqs wOne wAll ws resp log","simp [World.shutTx]")
emit("sendBroadcast","(m : Msg)","w.sendBroadcast m","bqs bq cells wRx tail log",rfl)
emitOpt("popUnicast","","w.popUnicast","uq ws wOne","""unfold World.popUnicast at h
  split at h
  · simp at h
  · simp only [] at h
    split at h
    · simp at h; obtain ⟨-, rfl⟩ := h; rfl
    · split at h <;> (simp at h; obtain ⟨-, rfl⟩ := h; rfl)""")
emitOpt("popBroadcast","{b : Nat}","w.popBroadcast b","bq tail ws wAll bqs cells wRx log","""unfold World.popBroadcast at h
  split at h
  · simp at h
  · split at h
    · simp at h
    · simp only [] at h
      split at h
      · simp at h; obtain ⟨-, rfl⟩ := h; rfl
      · split at h <;> (simp at h; obtain ⟨-, rfl⟩ := h; rfl)""")
tr="""simp only [World.tryRecv]
  split
  · split
    · rename_i h; %s
    · rfl
  · split
    · rename_i h; %s
    · rfl
  · split <;> rfl"""
for f in F:
    if f in "uq ws wOne bq tail wAll bqs cells wRx log".split(): continue
    out.append(f"@[simp] theorem World.tryRecv_{f} (w : World) (b : Nat) : (w.tryRecv b).1.{f} = w.{f} := by\n  "+tr%(f"exact World.popBroadcast_{f} h",f"exact World.popUnicast_{f} h"))
emit("sendOne","(m : Msg)","(w.sendOne m).1","cells wRx ws wOne uq","""simp only [World.sendOne]
  split
  · rfl
  · split <;> rfl""")
emit("sendAll","(m : Msg)","(w.sendAll m).1","ws wAll bqs bq cells wRx tail log","""simp only [World.sendAll]
  split <;> rfl""")
emit("requeue","(m : Msg)","w.requeue m","cells wRx uq log","""simp only [World.requeue]
  split <;> rfl""")
out.append("\nend Xtra")
open("/verif/lean/Verif/Frame.lean","w").write("\n".join(out)+"\n")
