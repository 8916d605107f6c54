import Mathlib.Analysis.Real.Pi.Bounds
/-! # 27 decimals of π -/
namespace StdSimd.Trig

theorem pi_gt_27 : 3.141592653589793238462643383 < Real.pi := by
  pi_lower_bound [
    141421356237309504880168872420969807856967187537694807317667974 / 10 ^ 62,
    184775906502257351225636637879357657364483325172728497223019547 / 10 ^ 62,
    196157056080646089825236447226847807394786746178667219000583218 / 10 ^ 62,
    199036945334439377248967390621895984315094973745971412366722594 / 10 ^ 62,
    199759091241034478542954320951820138888640722940922358868563415 / 10 ^ 62,
    199939763739240844023153129933234439370012216251545924928824758 / 10 ^ 62,
    199984940367828908184329298239276644870121293760443566048816735 / 10 ^ 62,
    199996235056520228531398087545713543234783450188867018388031540 / 10 ^ 62,
    199999058761915234302316025140023979910597526724437530822147398 / 10 ^ 62,
    199999764690340381985805142034305203809653584577953007844772507 / 10 ^ 62,
    199999941172576443832045643547753135423252779869860320278359199 / 10 ^ 62,
    199999985293143570228946296141477571389640231137784553812946430 / 10 ^ 62,
    199999996323285858761669383080581942901015210248556070675062759 / 10 ^ 62,
    199999999080821462578194386627921229791778860637890564806150566 / 10 ^ 62,
    199999999770205365512534661558910821680107483238856424683565828 / 10 ^ 62,
    199999999942551341369882794443728355217817891583657050542141942 / 10 ^ 62,
    199999999985637835341955019176770098052096066621903160390608279 / 10 ^ 62,
    199999999996409458835456524829556821475927837499255160170955919 / 10 ^ 62,
    199999999999102364708862116834599464888302920293062818236198673 / 10 ^ 62,
    199999999999775591177215403310350507300769844382104523005493943 / 10 ^ 62,
    199999999999943897794303842958943916890403601900006042775945507 / 10 ^ 62,
    199999999999985974448575960247945747351642108629346772970470237 / 10 ^ 62,
    199999999999996493612143990031249547345975063789703041922624347 / 10 ^ 62,
    199999999999999123403035997505891331243247791066991153676006703 / 10 ^ 62,
    199999999999999780850758999376352766836234074205158789500005300 / 10 ^ 62,
    199999999999999945212689749844080687585647401451634731255162398 / 10 ^ 62,
    199999999999999986303172437461019702888698655544148127842435016 / 10 ^ 62,
    199999999999999996575793109365254896409192589209863995406323005 / 10 ^ 62,
    199999999999999999143948277341313722270236767635205176225241392 / 10 ^ 62,
    199999999999999999785987069335328430453055355679597492519637631 / 10 ^ 62,
    199999999999999999946496767333832107606107349155574135531952887 / 10 ^ 62,
    199999999999999999986624191833458026901079556678623206533086026 / 10 ^ 62,
    199999999999999999996656047958364506725241934131513906173902152 / 10 ^ 62,
    199999999999999999999164011989591126681308736342994608077264947 / 10 ^ 62,
    199999999999999999999791002997397781670327074886380910240178075 / 10 ^ 62,
    199999999999999999999947750749349445417581761896634743698848384 / 10 ^ 62,
    199999999999999999999986937687337361354395440047598655683387338 / 10 ^ 62,
    199999999999999999999996734421834340338598859985239662030764038 / 10 ^ 62,
    199999999999999999999999183605458585084649714994643665389560835 / 10 ^ 62,
    199999999999999999999999795901364646271162428748556775715007073 / 10 ^ 62,
    199999999999999999999999948975341161567790607187132685139227823 / 10 ^ 62,
    199999999999999999999999987243835290391947651796782764485461710 / 10 ^ 62,
    199999999999999999999999996810958822597986912949195665696406350 / 10 ^ 62,
    199999999999999999999999999202739705649496728237298914835041646 / 10 ^ 62,
    199999999999999999999999999800684926412374182059324728609444166 / 10 ^ 62,
    199999999999999999999999999950171231603093545514831182146153777 / 10 ^ 62]

theorem pi_lt_27 : Real.pi < 3.141592653589793238462643384 := by
  pi_upper_bound [
    141421356237309504880168872420969807856967187537694807317667973 / 10 ^ 62,
    184775906502257351225636637879357657364483325172728497223019546 / 10 ^ 62,
    196157056080646089825236447226847807394786746178667219000583217 / 10 ^ 62,
    199036945334439377248967390621895984315094973745971412366722592 / 10 ^ 62,
    199759091241034478542954320951820138888640722940922358868563414 / 10 ^ 62,
    199939763739240844023153129933234439370012216251545924928824757 / 10 ^ 62,
    199984940367828908184329298239276644870121293760443566048816734 / 10 ^ 62,
    199996235056520228531398087545713543234783450188867018388031538 / 10 ^ 62,
    199999058761915234302316025140023979910597526724437530822147397 / 10 ^ 62,
    199999764690340381985805142034305203809653584577953007844772505 / 10 ^ 62,
    199999941172576443832045643547753135423252779869860320278359198 / 10 ^ 62,
    199999985293143570228946296141477571389640231137784553812946429 / 10 ^ 62,
    199999996323285858761669383080581942901015210248556070675062757 / 10 ^ 62,
    199999999080821462578194386627921229791778860637890564806150565 / 10 ^ 62,
    199999999770205365512534661558910821680107483238856424683565827 / 10 ^ 62,
    199999999942551341369882794443728355217817891583657050542141941 / 10 ^ 62,
    199999999985637835341955019176770098052096066621903160390608278 / 10 ^ 62,
    199999999996409458835456524829556821475927837499255160170955918 / 10 ^ 62,
    199999999999102364708862116834599464888302920293062818236198672 / 10 ^ 62,
    199999999999775591177215403310350507300769844382104523005493942 / 10 ^ 62,
    199999999999943897794303842958943916890403601900006042775945506 / 10 ^ 62,
    199999999999985974448575960247945747351642108629346772970470236 / 10 ^ 62,
    199999999999996493612143990031249547345975063789703041922624345 / 10 ^ 62,
    199999999999999123403035997505891331243247791066991153676006702 / 10 ^ 62,
    199999999999999780850758999376352766836234074205158789500005298 / 10 ^ 62,
    199999999999999945212689749844080687585647401451634731255162396 / 10 ^ 62,
    199999999999999986303172437461019702888698655544148127842435015 / 10 ^ 62,
    199999999999999996575793109365254896409192589209863995406323003 / 10 ^ 62,
    199999999999999999143948277341313722270236767635205176225241390 / 10 ^ 62,
    199999999999999999785987069335328430453055355679597492519637629 / 10 ^ 62,
    199999999999999999946496767333832107606107349155574135531952885 / 10 ^ 62,
    199999999999999999986624191833458026901079556678623206533086024 / 10 ^ 62,
    199999999999999999996656047958364506725241934131513906173902151 / 10 ^ 62,
    199999999999999999999164011989591126681308736342994608077264945 / 10 ^ 62,
    199999999999999999999791002997397781670327074886380910240178074 / 10 ^ 62,
    199999999999999999999947750749349445417581761896634743698848383 / 10 ^ 62,
    199999999999999999999986937687337361354395440047598655683387337 / 10 ^ 62,
    199999999999999999999996734421834340338598859985239662030764036 / 10 ^ 62,
    199999999999999999999999183605458585084649714994643665389560834 / 10 ^ 62,
    199999999999999999999999795901364646271162428748556775715007072 / 10 ^ 62,
    199999999999999999999999948975341161567790607187132685139227822 / 10 ^ 62,
    199999999999999999999999987243835290391947651796782764485461708 / 10 ^ 62,
    199999999999999999999999996810958822597986912949195665696406349 / 10 ^ 62,
    199999999999999999999999999202739705649496728237298914835041644 / 10 ^ 62,
    199999999999999999999999999800684926412374182059324728609444164 / 10 ^ 62,
    199999999999999999999999999950171231603093545514831182146153775 / 10 ^ 62]

end StdSimd.Trig
