import Verif.Model.Memlimit
/-
What the system says about available memory, stated directly in terms of the answers to the system
calls that are compiled in.
-/
namespace Scrypt.Spec

/-- The amount of physical memory reported by `sysconf`, when it is compiled in and known. -/
def PhysMem (cfg : MemCfg) (sys : MemSys) (n : Nat) : Prop :=
  cfg.physPages = true ∧ sys.pageSize ≠ -1 ∧ sys.physPages ≠ -1 ∧
    n = (sys.pageSize * sys.physPages).toNat

/-- The system reports a limit of `n` bytes: a resource limit that is not infinite, a total amount
of memory, or the amount of user memory (which is never taken to be less than half of the physical
memory). -/
def SysLimit (szMax : Nat) (cfg : MemCfg) (sys : MemSys) (n : Nat) : Prop :=
  (cfg.rlimitAs = true ∧ ∃ v, sys.rlimAs = .cur v ∧ n = v.toNat) ∨
  (cfg.rlimitData = true ∧ ∃ v, sys.rlimData = .cur v ∧ n = v.toNat) ∨
  (cfg.rlimitRss = true ∧ ∃ v, sys.rlimRss = .cur v ∧ n = v.toNat) ∨
  (cfg.sysinfo = true ∧ ∃ t u, sys.sysinfo = some (t, u) ∧
    n = (if cfg.memUnit then t * u.setWidth 64 else t).toNat) ∨
  (cfg.hwMemsize = true ∧ ∃ v, sys.sysctlMemsize = some (8, v) ∧ n = v.toNat) ∨
  PhysMem cfg sys n ∨
  (cfg.hwUsermem = true ∧ ∃ v, sys.sysctlUsermem = some (8, v) ∧
    ((∃ ph, PhysMem cfg sys ph ∧ ph < szMax ∧ n = max (min szMax v.toNat) (ph / 2)) ∨
     ((∀ ph, PhysMem cfg sys ph → szMax ≤ ph) ∧ n = v.toNat)))

/-- A system call that is compiled in failed (for `sysconf`: returned -1 with an errno other than 0
and EINVAL; for `sysctl`: also if it delivered neither 4 nor 8 bytes). -/
def QueryFailed (cfg : MemCfg) (sys : MemSys) : Prop :=
  (cfg.hwUsermem = true ∧ ∀ v, sys.sysctlUsermem ≠ some (8, v) ∧ sys.sysctlUsermem ≠ some (4, v)) ∨
  (cfg.hwMemsize = true ∧ ∀ v, sys.sysctlMemsize ≠ some (8, v) ∧ sys.sysctlMemsize ≠ some (4, v)) ∨
  (cfg.sysinfo = true ∧ sys.sysinfo = none) ∨
  (cfg.rlimitAs = true ∧ sys.rlimAs = .fail) ∨
  (cfg.rlimitData = true ∧ sys.rlimData = .fail) ∨
  (cfg.rlimitRss = true ∧ sys.rlimRss = .fail) ∨
  (cfg.physPages = true ∧ (sys.pageSize = -1 ∨ sys.physPages = -1) ∧ sys.scErr = .other)

end Scrypt.Spec
