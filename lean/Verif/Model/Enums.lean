/-! # Enumerations of `tools.hpp` -/

namespace Verif

/-- `enum class ElasticModel` (tools.hpp:54). -/
inductive ElasticModel | hencky | neoHookean
  deriving DecidableEq

/-- `enum class PlasticModel` (tools.hpp:55). -/
inductive PlasticModel
  | noPlasticity | vm | dp | dpSoft | mcc | vmVisc | dpVisc | mccVisc | dpMui | mccMui
  deriving DecidableEq

/-- `enum class HardeningLaw` (tools.hpp:56). -/
inductive HardeningLaw | noHard | expoExpl | sinhExpl | expoImpl | sinhImpl
  deriving DecidableEq

end Verif
