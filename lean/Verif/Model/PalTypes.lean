import Verif.Model.Props
/-
The tables of paltypes.py, generated from the source text.
-/

namespace Pal

/-- `PALWORLD_TYPE_HINTS` (paltypes.py:21-49) -/
def palHints : List (String × String) := [
  (".worldSaveData.CharacterContainerSaveData.Key",
    "StructProperty"),
  (".worldSaveData.CharacterSaveParameterMap.Key",
    "StructProperty"),
  (".worldSaveData.CharacterSaveParameterMap.Value",
    "StructProperty"),
  (".worldSaveData.FoliageGridSaveDataMap.Key",
    "StructProperty"),
  (".worldSaveData.FoliageGridSaveDataMap.Value.ModelMap.Value",
    "StructProperty"),
  (".worldSaveData.FoliageGridSaveDataMap.Value.ModelMap.Value.InstanceDataMap.Key",
    "StructProperty"),
  (".worldSaveData.FoliageGridSaveDataMap.Value.ModelMap.Value.InstanceDataMap.Value",
    "StructProperty"),
  (".worldSaveData.FoliageGridSaveDataMap.Value",
    "StructProperty"),
  (".worldSaveData.ItemContainerSaveData.Key",
    "StructProperty"),
  (".worldSaveData.MapObjectSaveData.MapObjectSaveData.ConcreteModel.ModuleMap.Value",
    "StructProperty"),
  (".worldSaveData.MapObjectSaveData.MapObjectSaveData.Model.EffectMap.Value",
    "StructProperty"),
  (".worldSaveData.MapObjectSpawnerInStageSaveData.Key",
    "StructProperty"),
  (".worldSaveData.MapObjectSpawnerInStageSaveData.Value",
    "StructProperty"),
  (".worldSaveData.MapObjectSpawnerInStageSaveData.Value.SpawnerDataMapByLevelObjectInstanceId.Key",
    "Guid"),
  (".worldSaveData.MapObjectSpawnerInStageSaveData.Value.SpawnerDataMapByLevelObjectInstanceId.Value",
    "StructProperty"),
  (".worldSaveData.MapObjectSpawnerInStageSaveData.Value.SpawnerDataMapByLevelObjectInstanceId.Value.ItemMap.Value",
    "StructProperty"),
  (".worldSaveData.WorkSaveData.WorkSaveData.WorkAssignMap.Value",
    "StructProperty"),
  (".worldSaveData.BaseCampSaveData.Key",
    "Guid"),
  (".worldSaveData.BaseCampSaveData.Value",
    "StructProperty"),
  (".worldSaveData.BaseCampSaveData.Value.ModuleMap.Value",
    "StructProperty"),
  (".worldSaveData.ItemContainerSaveData.Value",
    "StructProperty"),
  (".worldSaveData.CharacterContainerSaveData.Value",
    "StructProperty"),
  (".worldSaveData.GroupSaveDataMap.Key",
    "Guid"),
  (".worldSaveData.GroupSaveDataMap.Value",
    "StructProperty"),
  (".worldSaveData.EnemyCampSaveData.EnemyCampStatusMap.Value",
    "StructProperty"),
  (".worldSaveData.DungeonSaveData.DungeonSaveData.MapObjectSaveData.MapObjectSaveData.Model.EffectMap.Value",
    "StructProperty"),
  (".worldSaveData.DungeonSaveData.DungeonSaveData.MapObjectSaveData.MapObjectSaveData.ConcreteModel.ModuleMap.Value",
    "StructProperty")]

/-- `PALWORLD_CUSTOM_PROPERTIES` (paltypes.py:51-111): path, module of the decode
function, module of the encode function. -/
def palCustoms : List (String × CodecId × CodecId) := [
  (".worldSaveData.GroupSaveDataMap",
    .group, .group),
  (".worldSaveData.CharacterSaveParameterMap.Value.RawData",
    .character, .character),
  (".worldSaveData.ItemContainerSaveData.Value.RawData",
    .itemContainer, .itemContainer),
  (".worldSaveData.ItemContainerSaveData.Value.Slots.Slots.RawData",
    .itemContainerSlots, .itemContainerSlots),
  (".worldSaveData.CharacterContainerSaveData.Value.Slots.Slots.RawData",
    .characterContainer, .characterContainer),
  (".worldSaveData.DynamicItemSaveData.DynamicItemSaveData.RawData",
    .dynamicItem, .dynamicItem),
  (".worldSaveData.FoliageGridSaveDataMap.Value.ModelMap.Value.RawData",
    .foliageModel, .foliageModel),
  (".worldSaveData.FoliageGridSaveDataMap.Value.ModelMap.Value.InstanceDataMap.Value.RawData",
    .foliageModelInstance, .foliageModelInstance),
  (".worldSaveData.BaseCampSaveData.Value.RawData",
    .baseCamp, .baseCamp),
  (".worldSaveData.BaseCampSaveData.Value.WorkerDirector.RawData",
    .workerDirector, .workerDirector),
  (".worldSaveData.BaseCampSaveData.Value.WorkCollection.RawData",
    .workCollection, .workCollection),
  (".worldSaveData.BaseCampSaveData.Value.ModuleMap",
    .baseCampModule, .baseCampModule),
  (".worldSaveData.WorkSaveData",
    .work, .work),
  (".worldSaveData.MapObjectSaveData",
    .mapObject, .mapObject)]

/-- `path in type_hints` / `type_hints[path]` -/
def palHint (path : PyStr) : Option PyStr :=
  (palHints.find? fun kv => P kv.1 = path).map fun kv => P kv.2

/-- The entries of the table selected by `keep`, as used by a reader (first function
of the pair); `Props/Registry.lean` shows that the two functions of a pair always
come from the same module. -/
def palCustom (keep : String → Bool) (path : PyStr) : Option CodecId :=
  (palCustoms.find? fun kv => keep kv.1 && P kv.1 = path).map fun kv => kv.2.1

/-- Reader configuration of `convert_sav_to_json` (convert.py:107-116) for a selection of
custom properties. -/
def palCfg (keep : String → Bool) (allowNan : Bool) : Cfg := ⟨palHint, palCustom keep, allowNan⟩

end Pal
