import Verif.Model.Core
/-!
# Data of a complete object
-/
namespace Sofar.Spec

/-- names and values of the data that `_complete_sofa` adds, in the form in which objects hold them: numbers as arrays
with at least two axes, single values as scalars -/
def completeData : List (Str × Val) :=
  [(py% "ListenerView", .arr ⟨.i, [1, 3], [.num (.fin 1), .num (.fin 0), .num (.fin 0)]⟩),
   (py% "ListenerView_Type", .str (py% "cartesian")),
   (py% "ListenerView_Units", .str (py% "metre")),
   (py% "ListenerUp", .arr ⟨.i, [1, 3], [.num (.fin 0), .num (.fin 0), .num (.fin 1)]⟩),
   (py% "ReceiverView", .arr ⟨.i, [1, 3], [.num (.fin 1), .num (.fin 0), .num (.fin 0)]⟩),
   (py% "ReceiverView_Type", .str (py% "cartesian")),
   (py% "ReceiverView_Units", .str (py% "metre")),
   (py% "ReceiverUp", .arr ⟨.i, [1, 3], [.num (.fin 0), .num (.fin 0), .num (.fin 1)]⟩),
   (py% "SourceView", .arr ⟨.i, [1, 3], [.num (.fin 1), .num (.fin 0), .num (.fin 0)]⟩),
   (py% "SourceView_Type", .str (py% "cartesian")),
   (py% "SourceView_Units", .str (py% "metre")),
   (py% "SourceUp", .arr ⟨.i, [1, 3], [.num (.fin 0), .num (.fin 0), .num (.fin 1)]⟩),
   (py% "EmitterView", .arr ⟨.i, [1, 3], [.num (.fin 1), .num (.fin 0), .num (.fin 0)]⟩),
   (py% "EmitterView_Type", .str (py% "cartesian")),
   (py% "EmitterView_Units", .str (py% "metre")),
   (py% "EmitterUp", .arr ⟨.i, [1, 3], [.num (.fin 0), .num (.fin 0), .num (.fin 1)]⟩),
   (py% "GLOBAL_EmitterDescription", .str (py% "what an emitter")),
   (py% "EmitterDescriptions", .npstr (py% "emitter array")),
   (py% "GLOBAL_RoomShortName", .str (py% "Hall")),
   (py% "GLOBAL_RoomDescription", .str (py% "Wooden floor")),
   (py% "GLOBAL_RoomLocation", .str (py% "some where nice")),
   (py% "RoomTemperature", .num .i (.num (.fin 0))),
   (py% "RoomTemperature_Units", .str (py% "kelvin")),
   (py% "GLOBAL_RoomGeometry", .str (py% "some/file")),
   (py% "RoomVolume", .num .i (.num (.fin 200))),
   (py% "RoomVolume_Units", .str (py% "cubic metre")),
   (py% "RoomCornerA", .arr ⟨.i, [1, 3], [.num (.fin 0), .num (.fin 0), .num (.fin 0)]⟩),
   (py% "RoomCornerB", .arr ⟨.i, [1, 3], [.num (.fin 1), .num (.fin 1), .num (.fin 1)]⟩),
   (py% "RoomCorners", .num .i (.num (.fin 0))),
   (py% "RoomCorners_Type", .str (py% "cartesian")),
   (py% "RoomCorners_Units", .str (py% "metre"))]

end Sofar.Spec
