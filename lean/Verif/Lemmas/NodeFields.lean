import Verif.Model.Node

/-!
# What the helper functions of the node model leave alone
-/

namespace Bedrock.Node.Node
open Bedrock Bedrock.Node

@[simp] theorem emit_state (n : Node) (e : Effect) : (n.emit e).state = n.state := by
  rfl
@[simp] theorem emit_hist (n : Node) (e : Effect) : (n.emit e).hist = n.hist := by
  rfl
@[simp] theorem emit_stateChangeCount (n : Node) (e : Effect) : (n.emit e).stateChangeCount = n.stateChangeCount := by
  rfl
@[simp] theorem emit_leadPeer (n : Node) (e : Effect) : (n.emit e).leadPeer = n.leadPeer := by
  rfl
@[simp] theorem emit_syncPeer (n : Node) (e : Effect) : (n.emit e).syncPeer = n.syncPeer := by
  rfl
@[simp] theorem emit_priority (n : Node) (e : Effect) : (n.emit e).priority = n.priority := by
  rfl
@[simp] theorem emit_configured (n : Node) (e : Effect) : (n.emit e).configured = n.configured := by
  rfl
@[simp] theorem emit_commitEnabled (n : Node) (e : Effect) : (n.emit e).commitEnabled = n.commitEnabled := by
  rfl
@[simp] theorem emit_dead (n : Node) (e : Effect) : (n.emit e).dead = n.dead := by
  rfl
@[simp] theorem emit_shuttingDown (n : Node) (e : Effect) : (n.emit e).shuttingDown = n.shuttingDown := by
  rfl
@[simp] theorem emit_haveBeenWaiting (n : Node) (e : Effect) : (n.emit e).haveBeenWaiting = n.haveBeenWaiting := by
  rfl
@[simp] theorem emit_haveSeenSame (n : Node) (e : Effect) : (n.emit e).haveSeenSame = n.haveSeenSame := by
  rfl
@[simp] theorem emit_blocked (n : Node) (e : Effect) : (n.emit e).blocked = n.blocked := by
  rfl
@[simp] theorem emit_commits (n : Node) (e : Effect) : (n.emit e).commits = n.commits := by
  rfl
@[simp] theorem emit_journal (n : Node) (e : Effect) : (n.emit e).journal = n.journal := by
  rfl
@[simp] theorem emit_version (n : Node) (e : Effect) : (n.emit e).version = n.version := by
  rfl
@[simp] theorem emit_peers_length (n : Node) (e : Effect) : (n.emit e).peers.length = n.peers.length := by
  rfl

@[simp] theorem setPeer_state (n : Node) (i : Nat) (f : Peer → Peer) : (n.setPeer i f).state = n.state := by
  simp [setPeer]
@[simp] theorem setPeer_hist (n : Node) (i : Nat) (f : Peer → Peer) : (n.setPeer i f).hist = n.hist := by
  simp [setPeer]
@[simp] theorem setPeer_stateChangeCount (n : Node) (i : Nat) (f : Peer → Peer) : (n.setPeer i f).stateChangeCount = n.stateChangeCount := by
  simp [setPeer]
@[simp] theorem setPeer_leadPeer (n : Node) (i : Nat) (f : Peer → Peer) : (n.setPeer i f).leadPeer = n.leadPeer := by
  simp [setPeer]
@[simp] theorem setPeer_syncPeer (n : Node) (i : Nat) (f : Peer → Peer) : (n.setPeer i f).syncPeer = n.syncPeer := by
  simp [setPeer]
@[simp] theorem setPeer_priority (n : Node) (i : Nat) (f : Peer → Peer) : (n.setPeer i f).priority = n.priority := by
  simp [setPeer]
@[simp] theorem setPeer_configured (n : Node) (i : Nat) (f : Peer → Peer) : (n.setPeer i f).configured = n.configured := by
  simp [setPeer]
@[simp] theorem setPeer_commitEnabled (n : Node) (i : Nat) (f : Peer → Peer) : (n.setPeer i f).commitEnabled = n.commitEnabled := by
  simp [setPeer]
@[simp] theorem setPeer_dead (n : Node) (i : Nat) (f : Peer → Peer) : (n.setPeer i f).dead = n.dead := by
  simp [setPeer]
@[simp] theorem setPeer_shuttingDown (n : Node) (i : Nat) (f : Peer → Peer) : (n.setPeer i f).shuttingDown = n.shuttingDown := by
  simp [setPeer]
@[simp] theorem setPeer_haveBeenWaiting (n : Node) (i : Nat) (f : Peer → Peer) : (n.setPeer i f).haveBeenWaiting = n.haveBeenWaiting := by
  simp [setPeer]
@[simp] theorem setPeer_haveSeenSame (n : Node) (i : Nat) (f : Peer → Peer) : (n.setPeer i f).haveSeenSame = n.haveSeenSame := by
  simp [setPeer]
@[simp] theorem setPeer_blocked (n : Node) (i : Nat) (f : Peer → Peer) : (n.setPeer i f).blocked = n.blocked := by
  simp [setPeer]
@[simp] theorem setPeer_commits (n : Node) (i : Nat) (f : Peer → Peer) : (n.setPeer i f).commits = n.commits := by
  simp [setPeer]
@[simp] theorem setPeer_journal (n : Node) (i : Nat) (f : Peer → Peer) : (n.setPeer i f).journal = n.journal := by
  simp [setPeer]
@[simp] theorem setPeer_version (n : Node) (i : Nat) (f : Peer → Peer) : (n.setPeer i f).version = n.version := by
  simp [setPeer]
@[simp] theorem setPeer_out (n : Node) (i : Nat) (f : Peer → Peer) : (n.setPeer i f).out = n.out := by
  simp [setPeer]
@[simp] theorem setPeer_peers_length (n : Node) (i : Nat) (f : Peer → Peer) : (n.setPeer i f).peers.length = n.peers.length := by
  simp [setPeer]

@[simp] theorem send_state (n : Node) (i : Nat) (m : OutMsg) : (n.send i m).state = n.state := by
  unfold send; (try split) <;> simp
@[simp] theorem send_hist (n : Node) (i : Nat) (m : OutMsg) : (n.send i m).hist = n.hist := by
  unfold send; (try split) <;> simp
@[simp] theorem send_stateChangeCount (n : Node) (i : Nat) (m : OutMsg) : (n.send i m).stateChangeCount = n.stateChangeCount := by
  unfold send; (try split) <;> simp
@[simp] theorem send_leadPeer (n : Node) (i : Nat) (m : OutMsg) : (n.send i m).leadPeer = n.leadPeer := by
  unfold send; (try split) <;> simp
@[simp] theorem send_syncPeer (n : Node) (i : Nat) (m : OutMsg) : (n.send i m).syncPeer = n.syncPeer := by
  unfold send; (try split) <;> simp
@[simp] theorem send_priority (n : Node) (i : Nat) (m : OutMsg) : (n.send i m).priority = n.priority := by
  unfold send; (try split) <;> simp
@[simp] theorem send_configured (n : Node) (i : Nat) (m : OutMsg) : (n.send i m).configured = n.configured := by
  unfold send; (try split) <;> simp
@[simp] theorem send_commitEnabled (n : Node) (i : Nat) (m : OutMsg) : (n.send i m).commitEnabled = n.commitEnabled := by
  unfold send; (try split) <;> simp
@[simp] theorem send_dead (n : Node) (i : Nat) (m : OutMsg) : (n.send i m).dead = n.dead := by
  unfold send; (try split) <;> simp
@[simp] theorem send_shuttingDown (n : Node) (i : Nat) (m : OutMsg) : (n.send i m).shuttingDown = n.shuttingDown := by
  unfold send; (try split) <;> simp
@[simp] theorem send_haveBeenWaiting (n : Node) (i : Nat) (m : OutMsg) : (n.send i m).haveBeenWaiting = n.haveBeenWaiting := by
  unfold send; (try split) <;> simp
@[simp] theorem send_haveSeenSame (n : Node) (i : Nat) (m : OutMsg) : (n.send i m).haveSeenSame = n.haveSeenSame := by
  unfold send; (try split) <;> simp
@[simp] theorem send_blocked (n : Node) (i : Nat) (m : OutMsg) : (n.send i m).blocked = n.blocked := by
  unfold send; (try split) <;> simp
@[simp] theorem send_commits (n : Node) (i : Nat) (m : OutMsg) : (n.send i m).commits = n.commits := by
  unfold send; (try split) <;> simp
@[simp] theorem send_journal (n : Node) (i : Nat) (m : OutMsg) : (n.send i m).journal = n.journal := by
  unfold send; (try split) <;> simp
@[simp] theorem send_version (n : Node) (i : Nat) (m : OutMsg) : (n.send i m).version = n.version := by
  unfold send; (try split) <;> simp
@[simp] theorem send_peers_length (n : Node) (i : Nat) (m : OutMsg) : (n.send i m).peers.length = n.peers.length := by
  unfold send; (try split) <;> simp

@[simp] theorem reconnectPeer_state (n : Node) (i : Nat) : (n.reconnectPeer i).state = n.state := by
  simp [reconnectPeer]
@[simp] theorem reconnectPeer_hist (n : Node) (i : Nat) : (n.reconnectPeer i).hist = n.hist := by
  simp [reconnectPeer]
@[simp] theorem reconnectPeer_stateChangeCount (n : Node) (i : Nat) : (n.reconnectPeer i).stateChangeCount = n.stateChangeCount := by
  simp [reconnectPeer]
@[simp] theorem reconnectPeer_leadPeer (n : Node) (i : Nat) : (n.reconnectPeer i).leadPeer = n.leadPeer := by
  simp [reconnectPeer]
@[simp] theorem reconnectPeer_syncPeer (n : Node) (i : Nat) : (n.reconnectPeer i).syncPeer = n.syncPeer := by
  simp [reconnectPeer]
@[simp] theorem reconnectPeer_priority (n : Node) (i : Nat) : (n.reconnectPeer i).priority = n.priority := by
  simp [reconnectPeer]
@[simp] theorem reconnectPeer_configured (n : Node) (i : Nat) : (n.reconnectPeer i).configured = n.configured := by
  simp [reconnectPeer]
@[simp] theorem reconnectPeer_commitEnabled (n : Node) (i : Nat) : (n.reconnectPeer i).commitEnabled = n.commitEnabled := by
  simp [reconnectPeer]
@[simp] theorem reconnectPeer_dead (n : Node) (i : Nat) : (n.reconnectPeer i).dead = n.dead := by
  simp [reconnectPeer]
@[simp] theorem reconnectPeer_shuttingDown (n : Node) (i : Nat) : (n.reconnectPeer i).shuttingDown = n.shuttingDown := by
  simp [reconnectPeer]
@[simp] theorem reconnectPeer_haveBeenWaiting (n : Node) (i : Nat) : (n.reconnectPeer i).haveBeenWaiting = n.haveBeenWaiting := by
  simp [reconnectPeer]
@[simp] theorem reconnectPeer_haveSeenSame (n : Node) (i : Nat) : (n.reconnectPeer i).haveSeenSame = n.haveSeenSame := by
  simp [reconnectPeer]
@[simp] theorem reconnectPeer_blocked (n : Node) (i : Nat) : (n.reconnectPeer i).blocked = n.blocked := by
  simp [reconnectPeer]
@[simp] theorem reconnectPeer_commits (n : Node) (i : Nat) : (n.reconnectPeer i).commits = n.commits := by
  simp [reconnectPeer]
@[simp] theorem reconnectPeer_journal (n : Node) (i : Nat) : (n.reconnectPeer i).journal = n.journal := by
  simp [reconnectPeer]
@[simp] theorem reconnectPeer_version (n : Node) (i : Nat) : (n.reconnectPeer i).version = n.version := by
  simp [reconnectPeer]
@[simp] theorem reconnectPeer_peers_length (n : Node) (i : Nat) : (n.reconnectPeer i).peers.length = n.peers.length := by
  simp [reconnectPeer]

@[simp] theorem reconnectAll_state (n : Node)  : (n.reconnectAll).state = n.state := by
  simp [reconnectAll]
@[simp] theorem reconnectAll_hist (n : Node)  : (n.reconnectAll).hist = n.hist := by
  simp [reconnectAll]
@[simp] theorem reconnectAll_stateChangeCount (n : Node)  : (n.reconnectAll).stateChangeCount = n.stateChangeCount := by
  simp [reconnectAll]
@[simp] theorem reconnectAll_leadPeer (n : Node)  : (n.reconnectAll).leadPeer = n.leadPeer := by
  simp [reconnectAll]
@[simp] theorem reconnectAll_syncPeer (n : Node)  : (n.reconnectAll).syncPeer = n.syncPeer := by
  simp [reconnectAll]
@[simp] theorem reconnectAll_priority (n : Node)  : (n.reconnectAll).priority = n.priority := by
  simp [reconnectAll]
@[simp] theorem reconnectAll_configured (n : Node)  : (n.reconnectAll).configured = n.configured := by
  simp [reconnectAll]
@[simp] theorem reconnectAll_commitEnabled (n : Node)  : (n.reconnectAll).commitEnabled = n.commitEnabled := by
  simp [reconnectAll]
@[simp] theorem reconnectAll_dead (n : Node)  : (n.reconnectAll).dead = n.dead := by
  simp [reconnectAll]
@[simp] theorem reconnectAll_shuttingDown (n : Node)  : (n.reconnectAll).shuttingDown = n.shuttingDown := by
  simp [reconnectAll]
@[simp] theorem reconnectAll_haveBeenWaiting (n : Node)  : (n.reconnectAll).haveBeenWaiting = n.haveBeenWaiting := by
  simp [reconnectAll]
@[simp] theorem reconnectAll_haveSeenSame (n : Node)  : (n.reconnectAll).haveSeenSame = n.haveSeenSame := by
  simp [reconnectAll]
@[simp] theorem reconnectAll_blocked (n : Node)  : (n.reconnectAll).blocked = n.blocked := by
  simp [reconnectAll]
@[simp] theorem reconnectAll_commits (n : Node)  : (n.reconnectAll).commits = n.commits := by
  simp [reconnectAll]
@[simp] theorem reconnectAll_journal (n : Node)  : (n.reconnectAll).journal = n.journal := by
  simp [reconnectAll]
@[simp] theorem reconnectAll_version (n : Node)  : (n.reconnectAll).version = n.version := by
  simp [reconnectAll]
@[simp] theorem reconnectAll_peers_length (n : Node)  : (n.reconnectAll).peers.length = n.peers.length := by
  simp [reconnectAll]

@[simp] theorem updateSyncPeer_state (n : Node)  : (n.updateSyncPeer).state = n.state := by
  rfl
@[simp] theorem updateSyncPeer_hist (n : Node)  : (n.updateSyncPeer).hist = n.hist := by
  rfl
@[simp] theorem updateSyncPeer_stateChangeCount (n : Node)  : (n.updateSyncPeer).stateChangeCount = n.stateChangeCount := by
  rfl
@[simp] theorem updateSyncPeer_leadPeer (n : Node)  : (n.updateSyncPeer).leadPeer = n.leadPeer := by
  rfl
@[simp] theorem updateSyncPeer_priority (n : Node)  : (n.updateSyncPeer).priority = n.priority := by
  rfl
@[simp] theorem updateSyncPeer_configured (n : Node)  : (n.updateSyncPeer).configured = n.configured := by
  rfl
@[simp] theorem updateSyncPeer_commitEnabled (n : Node)  : (n.updateSyncPeer).commitEnabled = n.commitEnabled := by
  rfl
@[simp] theorem updateSyncPeer_dead (n : Node)  : (n.updateSyncPeer).dead = n.dead := by
  rfl
@[simp] theorem updateSyncPeer_shuttingDown (n : Node)  : (n.updateSyncPeer).shuttingDown = n.shuttingDown := by
  rfl
@[simp] theorem updateSyncPeer_haveBeenWaiting (n : Node)  : (n.updateSyncPeer).haveBeenWaiting = n.haveBeenWaiting := by
  rfl
@[simp] theorem updateSyncPeer_haveSeenSame (n : Node)  : (n.updateSyncPeer).haveSeenSame = n.haveSeenSame := by
  rfl
@[simp] theorem updateSyncPeer_blocked (n : Node)  : (n.updateSyncPeer).blocked = n.blocked := by
  rfl
@[simp] theorem updateSyncPeer_commits (n : Node)  : (n.updateSyncPeer).commits = n.commits := by
  rfl
@[simp] theorem updateSyncPeer_journal (n : Node)  : (n.updateSyncPeer).journal = n.journal := by
  rfl
@[simp] theorem updateSyncPeer_version (n : Node)  : (n.updateSyncPeer).version = n.version := by
  rfl
@[simp] theorem updateSyncPeer_out (n : Node)  : (n.updateSyncPeer).out = n.out := by
  rfl
@[simp] theorem updateSyncPeer_peers_length (n : Node)  : (n.updateSyncPeer).peers.length = n.peers.length := by
  rfl

@[simp] theorem dieIfForked_state (n : Node)  : (n.dieIfForked).state = n.state := by
  unfold dieIfForked; dsimp only; repeat' split
  all_goals rfl
@[simp] theorem dieIfForked_hist (n : Node)  : (n.dieIfForked).hist = n.hist := by
  unfold dieIfForked; dsimp only; repeat' split
  all_goals rfl
@[simp] theorem dieIfForked_stateChangeCount (n : Node)  : (n.dieIfForked).stateChangeCount = n.stateChangeCount := by
  unfold dieIfForked; dsimp only; repeat' split
  all_goals rfl
@[simp] theorem dieIfForked_leadPeer (n : Node)  : (n.dieIfForked).leadPeer = n.leadPeer := by
  unfold dieIfForked; dsimp only; repeat' split
  all_goals rfl
@[simp] theorem dieIfForked_syncPeer (n : Node)  : (n.dieIfForked).syncPeer = n.syncPeer := by
  unfold dieIfForked; dsimp only; repeat' split
  all_goals rfl
@[simp] theorem dieIfForked_priority (n : Node)  : (n.dieIfForked).priority = n.priority := by
  unfold dieIfForked; dsimp only; repeat' split
  all_goals rfl
@[simp] theorem dieIfForked_configured (n : Node)  : (n.dieIfForked).configured = n.configured := by
  unfold dieIfForked; dsimp only; repeat' split
  all_goals rfl
@[simp] theorem dieIfForked_commitEnabled (n : Node)  : (n.dieIfForked).commitEnabled = n.commitEnabled := by
  unfold dieIfForked; dsimp only; repeat' split
  all_goals rfl
@[simp] theorem dieIfForked_shuttingDown (n : Node)  : (n.dieIfForked).shuttingDown = n.shuttingDown := by
  unfold dieIfForked; dsimp only; repeat' split
  all_goals rfl
@[simp] theorem dieIfForked_haveBeenWaiting (n : Node)  : (n.dieIfForked).haveBeenWaiting = n.haveBeenWaiting := by
  unfold dieIfForked; dsimp only; repeat' split
  all_goals rfl
@[simp] theorem dieIfForked_haveSeenSame (n : Node)  : (n.dieIfForked).haveSeenSame = n.haveSeenSame := by
  unfold dieIfForked; dsimp only; repeat' split
  all_goals rfl
@[simp] theorem dieIfForked_blocked (n : Node)  : (n.dieIfForked).blocked = n.blocked := by
  unfold dieIfForked; dsimp only; repeat' split
  all_goals rfl
@[simp] theorem dieIfForked_commits (n : Node)  : (n.dieIfForked).commits = n.commits := by
  unfold dieIfForked; dsimp only; repeat' split
  all_goals rfl
@[simp] theorem dieIfForked_journal (n : Node)  : (n.dieIfForked).journal = n.journal := by
  unfold dieIfForked; dsimp only; repeat' split
  all_goals rfl
@[simp] theorem dieIfForked_version (n : Node)  : (n.dieIfForked).version = n.version := by
  unfold dieIfForked; dsimp only; repeat' split
  all_goals rfl
@[simp] theorem dieIfForked_out (n : Node)  : (n.dieIfForked).out = n.out := by
  unfold dieIfForked; dsimp only; repeat' split
  all_goals rfl
@[simp] theorem dieIfForked_peers_length (n : Node)  : (n.dieIfForked).peers.length = n.peers.length := by
  unfold dieIfForked; dsimp only; repeat' split
  all_goals rfl

@[simp] theorem checkLag_state (n : Node) (i : Nat) : (n.checkLag i).state = n.state := by
  unfold checkLag; dsimp only; repeat' split
  all_goals simp
@[simp] theorem checkLag_hist (n : Node) (i : Nat) : (n.checkLag i).hist = n.hist := by
  unfold checkLag; dsimp only; repeat' split
  all_goals simp
@[simp] theorem checkLag_stateChangeCount (n : Node) (i : Nat) : (n.checkLag i).stateChangeCount = n.stateChangeCount := by
  unfold checkLag; dsimp only; repeat' split
  all_goals simp
@[simp] theorem checkLag_leadPeer (n : Node) (i : Nat) : (n.checkLag i).leadPeer = n.leadPeer := by
  unfold checkLag; dsimp only; repeat' split
  all_goals simp
@[simp] theorem checkLag_syncPeer (n : Node) (i : Nat) : (n.checkLag i).syncPeer = n.syncPeer := by
  unfold checkLag; dsimp only; repeat' split
  all_goals simp
@[simp] theorem checkLag_priority (n : Node) (i : Nat) : (n.checkLag i).priority = n.priority := by
  unfold checkLag; dsimp only; repeat' split
  all_goals simp
@[simp] theorem checkLag_configured (n : Node) (i : Nat) : (n.checkLag i).configured = n.configured := by
  unfold checkLag; dsimp only; repeat' split
  all_goals simp
@[simp] theorem checkLag_commitEnabled (n : Node) (i : Nat) : (n.checkLag i).commitEnabled = n.commitEnabled := by
  unfold checkLag; dsimp only; repeat' split
  all_goals simp
@[simp] theorem checkLag_dead (n : Node) (i : Nat) : (n.checkLag i).dead = n.dead := by
  unfold checkLag; dsimp only; repeat' split
  all_goals simp
@[simp] theorem checkLag_shuttingDown (n : Node) (i : Nat) : (n.checkLag i).shuttingDown = n.shuttingDown := by
  unfold checkLag; dsimp only; repeat' split
  all_goals simp
@[simp] theorem checkLag_haveBeenWaiting (n : Node) (i : Nat) : (n.checkLag i).haveBeenWaiting = n.haveBeenWaiting := by
  unfold checkLag; dsimp only; repeat' split
  all_goals simp
@[simp] theorem checkLag_haveSeenSame (n : Node) (i : Nat) : (n.checkLag i).haveSeenSame = n.haveSeenSame := by
  unfold checkLag; dsimp only; repeat' split
  all_goals simp
@[simp] theorem checkLag_commits (n : Node) (i : Nat) : (n.checkLag i).commits = n.commits := by
  unfold checkLag; dsimp only; repeat' split
  all_goals simp
@[simp] theorem checkLag_journal (n : Node) (i : Nat) : (n.checkLag i).journal = n.journal := by
  unfold checkLag; dsimp only; repeat' split
  all_goals simp
@[simp] theorem checkLag_version (n : Node) (i : Nat) : (n.checkLag i).version = n.version := by
  unfold checkLag; dsimp only; repeat' split
  all_goals simp
@[simp] theorem checkLag_peers_length (n : Node) (i : Nat) : (n.checkLag i).peers.length = n.peers.length := by
  unfold checkLag; dsimp only; repeat' split
  all_goals simp

@[simp] theorem fail_state (n : Node) (i : Nat) : (n.fail i).state = n.state := by
  simp [fail]
@[simp] theorem fail_hist (n : Node) (i : Nat) : (n.fail i).hist = n.hist := by
  simp [fail]
@[simp] theorem fail_stateChangeCount (n : Node) (i : Nat) : (n.fail i).stateChangeCount = n.stateChangeCount := by
  simp [fail]
@[simp] theorem fail_leadPeer (n : Node) (i : Nat) : (n.fail i).leadPeer = n.leadPeer := by
  simp [fail]
@[simp] theorem fail_syncPeer (n : Node) (i : Nat) : (n.fail i).syncPeer = n.syncPeer := by
  simp [fail]
@[simp] theorem fail_priority (n : Node) (i : Nat) : (n.fail i).priority = n.priority := by
  simp [fail]
@[simp] theorem fail_configured (n : Node) (i : Nat) : (n.fail i).configured = n.configured := by
  simp [fail]
@[simp] theorem fail_commitEnabled (n : Node) (i : Nat) : (n.fail i).commitEnabled = n.commitEnabled := by
  simp [fail]
@[simp] theorem fail_dead (n : Node) (i : Nat) : (n.fail i).dead = n.dead := by
  simp [fail]
@[simp] theorem fail_shuttingDown (n : Node) (i : Nat) : (n.fail i).shuttingDown = n.shuttingDown := by
  simp [fail]
@[simp] theorem fail_haveBeenWaiting (n : Node) (i : Nat) : (n.fail i).haveBeenWaiting = n.haveBeenWaiting := by
  simp [fail]
@[simp] theorem fail_haveSeenSame (n : Node) (i : Nat) : (n.fail i).haveSeenSame = n.haveSeenSame := by
  simp [fail]
@[simp] theorem fail_blocked (n : Node) (i : Nat) : (n.fail i).blocked = n.blocked := by
  simp [fail]
@[simp] theorem fail_commits (n : Node) (i : Nat) : (n.fail i).commits = n.commits := by
  simp [fail]
@[simp] theorem fail_journal (n : Node) (i : Nat) : (n.fail i).journal = n.journal := by
  simp [fail]
@[simp] theorem fail_version (n : Node) (i : Nat) : (n.fail i).version = n.version := by
  simp [fail]
@[simp] theorem fail_peers_length (n : Node) (i : Nat) : (n.fail i).peers.length = n.peers.length := by
  simp [fail]

@[simp] theorem emit_peers (n : Node) (e : Effect) : (n.emit e).peers = n.peers := by
  rfl
@[simp] theorem emit_peer (n : Node) (e : Effect) (j : Nat) : (n.emit e).peer j = n.peer j := by
  simp [peer]
@[simp] theorem send_peers (n : Node) (i : Nat) (m : OutMsg) : (n.send i m).peers = n.peers := by
  unfold send; split <;> rfl
@[simp] theorem send_peer (n : Node) (i : Nat) (m : OutMsg) (j : Nat) : (n.send i m).peer j = n.peer j := by
  simp [peer]
@[simp] theorem updateSyncPeer_peers (n : Node)  : (n.updateSyncPeer).peers = n.peers := by
  rfl
@[simp] theorem updateSyncPeer_peer (n : Node)  (j : Nat) : (n.updateSyncPeer).peer j = n.peer j := by
  simp [peer]
@[simp] theorem dieIfForked_peers (n : Node)  : (n.dieIfForked).peers = n.peers := by
  unfold dieIfForked; dsimp only; repeat' split
  all_goals rfl
@[simp] theorem dieIfForked_peer (n : Node)  (j : Nat) : (n.dieIfForked).peer j = n.peer j := by
  simp [peer]
@[simp] theorem checkLag_peers (n : Node) (i : Nat) : (n.checkLag i).peers = n.peers := by
  unfold checkLag; dsimp only; repeat' split
  all_goals rfl
@[simp] theorem checkLag_peer (n : Node) (i : Nat) (j : Nat) : (n.checkLag i).peer j = n.peer j := by
  simp [peer]
@[simp] theorem fail_peers (n : Node) (i : Nat) : (n.fail i).peers = n.peers := by
  simp [fail]
@[simp] theorem fail_peer (n : Node) (i : Nat) (j : Nat) : (n.fail i).peer j = n.peer j := by
  simp [peer]
@[simp] theorem changeState_syncPeer (n : Node) (new : NState) : (n.changeState new).syncPeer = n.syncPeer := by
  unfold changeState; dsimp only; repeat' split
  all_goals simp
@[simp] theorem changeState_configured (n : Node) (new : NState) : (n.changeState new).configured = n.configured := by
  unfold changeState; dsimp only; repeat' split
  all_goals simp
@[simp] theorem changeState_dead (n : Node) (new : NState) : (n.changeState new).dead = n.dead := by
  unfold changeState; dsimp only; repeat' split
  all_goals simp
@[simp] theorem changeState_shuttingDown (n : Node) (new : NState) : (n.changeState new).shuttingDown = n.shuttingDown := by
  unfold changeState; dsimp only; repeat' split
  all_goals simp
@[simp] theorem changeState_haveSeenSame (n : Node) (new : NState) : (n.changeState new).haveSeenSame = n.haveSeenSame := by
  unfold changeState; dsimp only; repeat' split
  all_goals simp
@[simp] theorem changeState_blocked (n : Node) (new : NState) : (n.changeState new).blocked = n.blocked := by
  unfold changeState; dsimp only; repeat' split
  all_goals simp
@[simp] theorem changeState_commits (n : Node) (new : NState) : (n.changeState new).commits = n.commits := by
  unfold changeState; dsimp only; repeat' split
  all_goals simp
@[simp] theorem changeState_journal (n : Node) (new : NState) : (n.changeState new).journal = n.journal := by
  unfold changeState; dsimp only; repeat' split
  all_goals simp
@[simp] theorem changeState_version (n : Node) (new : NState) : (n.changeState new).version = n.version := by
  unfold changeState; dsimp only; repeat' split
  all_goals simp
@[simp] theorem changeState_peers_length (n : Node) (new : NState) : (n.changeState new).peers.length = n.peers.length := by
  unfold changeState; dsimp only; repeat' split
  all_goals simp

theorem changeState_same {n : Node} {new : NState} (h : new = n.state) : n.changeState new = n := by
  unfold changeState; rw [if_pos h]

@[simp] theorem changeState_state (n : Node) (new : NState) : (n.changeState new).state = new := by
  unfold changeState; dsimp only; split
  · rename_i h; exact h.symm
  · rfl

theorem changeState_hist (n : Node) (new : NState) :
    (n.changeState new).hist = if new = n.state then n.hist else n.hist ++ [new] := by
  unfold changeState; dsimp only; repeat' split
  all_goals simp_all

theorem changeState_scc (n : Node) (new : NState) :
    (n.changeState new).stateChangeCount =
      if new = n.state then n.stateChangeCount else n.stateChangeCount + 1 := by
  unfold changeState; dsimp only; repeat' split
  all_goals simp_all

theorem changeState_leadPeer (n : Node) (new : NState) :
    (n.changeState new).leadPeer =
      if new = n.state then n.leadPeer
      else if new.rank < NState.subscribing.rank ∨ n.state = .following then none else n.leadPeer := by
  unfold changeState; dsimp only; repeat' split
  all_goals first
    | (simp_all; done)
    | (simp_all; omega)
    | (rename_i h1 h2; exact absurd (h2.2.1.trans (by simp_all)) h2.1)
    | (exfalso; simp_all)
    | (simp_all <;> rename_i h1 h2 <;> exact absurd h2.2.1 h2.1)

theorem changeState_priority (n : Node) (new : NState) :
    (n.changeState new).priority =
      if new ≠ n.state ∧ new = .waiting ∧ n.haveBeenWaiting = false ∧ n.haveSeenSame = true
      then n.configured else n.priority := by
  unfold changeState; dsimp only; repeat' split
  all_goals first
    | (simp_all; done)
    | (simp_all; omega)
    | (rename_i h1 h2; exact absurd (h2.2.1.trans (by simp_all)) h2.1)
    | (exfalso; simp_all)
    | (simp_all <;> rename_i h1 h2 <;> exact absurd h2.2.1 h2.1)

theorem changeState_commitEnabled (n : Node) (new : NState) :
    (n.changeState new).commitEnabled =
      if new = n.state then n.commitEnabled
      else if new ≠ .searching then true
      else if inCharge n.state then false else n.commitEnabled := by
  have hs : inCharge .searching = false := rfl
  unfold changeState; dsimp only; repeat' split
  all_goals simp_all

end Bedrock.Node.Node
