/-!
# Version macros (include/mcut/mcut.h)

32-bit machine words are modelled by `BitVec 32` (the C macro shifts `int`s, the decode macros cast to
`uint32_t`).
-/
namespace Mcut.Version

/-- `MC_MAKE_VERSION(major, minor, patch)` — include/mcut/mcut.h:60-61. -/
def make (major minor patch : BitVec 32) : BitVec 32 :=
  (major <<< 22) ||| (minor <<< 12) ||| patch

/-- `MC_VERSION_MAJOR` — include/mcut/mcut.h:73. -/
def major (v : BitVec 32) : BitVec 32 := v >>> 22

/-- `MC_VERSION_MINOR` — include/mcut/mcut.h:76. -/
def minor (v : BitVec 32) : BitVec 32 := (v >>> 12) &&& 0x3ff#32

/-- `MC_VERSION_PATCH` — include/mcut/mcut.h:79. -/
def patch (v : BitVec 32) : BitVec 32 := v &&& 0xfff#32

end Mcut.Version
