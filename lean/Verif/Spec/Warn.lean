import Verif.Model.Warn
/-
What must be announced, and what may be.
-/

namespace Pal
namespace Warn

/-- The decoder registered for a decoded property, which names its path in `custom_type`. -/
def decoderOf (custom : PyStr → Option CodecId) (w : Val) : Option CodecId :=
  match w.get (P "custom_type") with
  | .ok (.str p) => custom p
  | _ => none

/-- The decoded properties of a document: those met when going down through dicts and lists, and
inside a decoded character, an item or the hatching egg of a map object, in the property list it holds. -/
inductive Found (custom : PyStr → Option CodecId) : Val → Val → Prop where
  | here {v : Val} {c : CodecId} : decoderOf custom v = some c → Found custom v v
  | dict {d : Dict} {k : PyStr} {x w : Val} : decoderOf custom (.dict d) = none → (k, x) ∈ d → Found custom x w →
      Found custom (.dict d) w
  | list {l : List Val} {x w : Val} : x ∈ l → Found custom x w → Found custom (.list l) w
  | object {v x w : Val} : decoderOf custom v = some .character ∨ decoderOf custom v = some .dynamicItem →
      v.path (ks ["value", "object"]) = .ok x → Found custom x w → Found custom v w
  | hatching {v x w m : Val} {l : List Val} : decoderOf custom v = some .mapObject → v.path (ks ["value", "values"]) = .ok (.list l) →
      m ∈ l → m.path (ks ["ConcreteModel", "value", "RawData", "value", "hatched_character_save_parameter"]) = .ok x →
      Found custom x w → Found custom v w

/-- A camp module kept as raw bytes is announced, with its type when the type is unknown. -/
def CampReported (log : List Warning) (m : Val) : Prop :=
  ∀ t raw, m.get (P "key") = .ok t → m.path (ks ["value", "RawData", "value", "values"]) = .ok raw →
    .noModule t ∈ log ∨
    (t = .str (P "EPalBaseCampModuleType::TransportItemDirector") ∧ .rawTransport ∈ log) ∨
    (t = .str (P "EPalBaseCampModuleType::PassiveEffect") ∧ .rawPassive ∈ log)

/-- A work kept as raw bytes is announced, and so is a transform kept as raw bytes. -/
def WorkReported (log : List Warning) (m : Val) : Prop :=
  ∀ t, m.path (ks ["WorkableType", "value", "value"]) = .ok t →
    (∀ raw, m.path (ks ["RawData", "value", "values"]) = .ok raw → .rawWork t ∈ log) ∧
    (∀ raw, m.path (ks ["RawData", "value", "transform", "raw_data"]) = .ok raw →
      ∃ n : Nat, m.path (ks ["RawData", "value", "transform", "type"]) = .ok (.int n) ∧ .rawTransform n t ∈ log)

/-- An unusual number of connectors is announced. -/
def ConnectorReported (log : List Warning) (x : Val) : Prop :=
  ∀ l, x.get (P "other_connectors") = .ok (.list l) → l.length ≠ 2 → l.length ≠ 4 → .connectors l.length ∈ log

/-- A concrete model kept as raw bytes, other than one that is empty, is announced with the
identifier of the object or the class of the model. -/
def ConcreteReported (log : List Warning) (m : Val) : Prop :=
  ∀ raw, m.path (ks ["ConcreteModel", "value", "RawData", "value", "values"]) = .ok raw → raw ≠ .list [] →
    ∃ o, m.path (ks ["MapObjectId", "value"]) = .ok (.str o) ∧
      (.noClass o ∈ log ∨ ∃ c, concreteClass? o = some c ∧ .noModel c ∈ log)

/-- What was not interpreted in a decoded property is announced. -/
def Reported (log : List Warning) (c : CodecId) (w : Val) : Prop :=
  match c with
  | .dynamicItem => w.path (ks ["value", "type"]) = .ok (.str (P "unknown")) → .rawItem ∈ log
  | .baseCampModule => ∀ l, w.path (ks ["value"]) = .ok (.list l) → ∀ m ∈ l, CampReported log m
  | .work => ∀ l, w.path (ks ["value", "values"]) = .ok (.list l) → ∀ m ∈ l, WorkReported log m
  | .connector => ∀ x, w.path (ks ["value"]) = .ok x → ConnectorReported log x
  | .mapObject => ∀ l, w.path (ks ["value", "values"]) = .ok (.list l) → ∀ m ∈ l,
      (∀ x, m.path (ks ["Model", "value", "Connector", "value", "RawData", "value"]) = .ok x → ConnectorReported log x) ∧
      ConcreteReported log m
  | _ => True

/-- The camp modules that are interpreted. -/
def knownModules : List String := [
  "EPalBaseCampModuleType::Energy", "EPalBaseCampModuleType::Medical", "EPalBaseCampModuleType::ResourceCollector",
  "EPalBaseCampModuleType::ItemStorages", "EPalBaseCampModuleType::FacilityReservation",
  "EPalBaseCampModuleType::ObjectMaintenance", "EPalBaseCampModuleType::TransportItemDirector",
  "EPalBaseCampModuleType::PassiveEffect"]

/-- The works that are interpreted. -/
def knownWorks : List String := [
  "EPalWorkableType::Progress", "EPalWorkableType::TransportItemInBaseCamp", "EPalWorkableType::ReviveCharacter",
  "EPalWorkableType::LevelObject", "EPalWorkableType::Repair", "EPalWorkableType::Defense", "EPalWorkableType::BootUp",
  "EPalWorkableType::OnlyJoin", "EPalWorkableType::OnlyJoinAndWalkAround", "EPalWorkableType::RemoveMapObjectEffect",
  "EPalWorkableType::MonsterFarm", "EPalWorkableType::Assign"]

/-- The concrete models that are interpreted, besides those without data of their own. -/
def knownModels : List String := [
  "PalMapObjectDeathDroppedCharacterModel", "PalMapObjectConvertItemModel", "PalMapObjectPickupItemOnLevelModel",
  "PalMapObjectDropItemModel", "PalMapObjectItemDropOnDamagModel", "PalMapObjectDeathPenaltyStorageModel",
  "PalMapObjectDefenseBulletLauncherModel", "PalMapObjectGenerateEnergyModel", "PalMapObjectFarmBlockV2Model",
  "PalMapObjectFastTravelPointModel", "PalMapObjectShippingItemModel", "PalMapObjectProductItemModel",
  "PalMapObjectRecoverOtomoModel", "PalMapObjectHatchingEggModel", "PalMapObjectTreasureBoxModel",
  "PalMapObjectBreedFarmModel", "PalMapObjectSignboardModel", "PalMapObjectTorchModel", "PalMapObjectPalEggModel",
  "PalMapObjectBaseCampPoint"]

/-- A message with a name in it that is not a false alarm. -/
def Justified (cfg : Cfg) : Warning → Prop
  | .guessed p _ => cfg.hint p = none
  | .noClass o => concreteClass? o = none
  | .noModel c => c ∉ knownModels ∧ c ∉ concreteNoOp
  | .noModule t => ∀ k ∈ knownModules, t ≠ .str (P k)
  | .moduleLeft t => ∃ k ∈ knownModules, t = .str (P k)
  | .rawWork t => ∀ k ∈ knownWorks, t ≠ .str (P k)
  | .rawTransform n t => n ≠ 1 ∧ n ≠ 2 ∧ n ≠ 3 ∧ ∃ k ∈ knownWorks, t = .str (P k)
  | .connectors n => n ≠ 2 ∧ n ≠ 4
  | _ => True

end Warn
end Pal
