import Verif.Driver.Model
/-! Model: the rest of the mount flags (api.go:43-76). -/
namespace Disko.Driver

/-- api.go:49 -/
def mountFlagsPreserveTimestamps : MountFlags := 32
/-- api.go:55 -/
def mountFlagsCustomStart : MountFlags := 64
/-- api.go:70 -/
def mountFlagsAllowReadWrite : MountFlags := mountFlagsAllowRead ||| mountFlagsAllowWrite
/-- api.go:71-75 -/
def mountFlagsAllowAll : MountFlags :=
  mountFlagsAllowRead ||| mountFlagsAllowWrite ||| mountFlagsAllowInsert ||| mountFlagsAllowDelete ||| mountFlagsAllowAdminister
/-- api.go:76 -/
def mountFlagsMask : MountFlags := mountFlagsCustomStart - 1

end Disko.Driver
