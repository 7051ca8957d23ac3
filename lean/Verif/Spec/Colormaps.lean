import Mathlib.Data.Nat.Notation

/-! The colour maps listed in the documentation of `colormap` (`colormap.py:11`), with the number of colours of the ColorBrewer scheme. -/

set_option autoImplicit false
namespace Gpy

/-- sequential schemes: nine colours -/
def sequentialMaps : List String := ["BuGn", "BuPu", "GnBu", "OrRd", "PuBu", "PuBuGn", "PuRd", "RdPu", "YlGn", "YlGnBu", "YlOrBr", "YlOrRd",
  "Blues", "Greens", "Greys", "Oranges", "Purples", "Reds"]

/-- diverging schemes: eleven colours -/
def divergingMaps : List String := ["BrBG", "PiYG", "PRGn", "PuOr", "RdBu", "RdGy", "RdYlBu", "RdYlGn", "Spectral"]

/-- qualitative schemes and their number of colours -/
def qualitativeMaps : List (String × ℕ) := [("Accent", 8), ("Dark2", 8), ("Paired", 12), ("Pastel1", 9), ("Pastel2", 8), ("Set1", 9), ("Set2", 8), ("Set3", 12)]

/-- every documented name with its number of colours -/
def documentedMaps : List (String × ℕ) := sequentialMaps.map (fun s => (s, 9)) ++ divergingMaps.map (fun s => (s, 11)) ++ qualitativeMaps

end Gpy
