import Mathlib.Data.Rat.Defs
import Mathlib.Analysis.SpecialFunctions.Pow.Real

/-!
# Tables of quadrature points and weights

`common/include/ref_quadrature.hpp`: points and weights of the Gauss-Lobatto and Gauss-Legendre rules
on `[-1, 1]`.  The decimals are those of the source, read as exact rational numbers; entries with a
square root are real numbers.  For a number of points that is not listed the functions of the source
write nothing: the list is empty.
-/

namespace Fierro.RefQuad

/-- The rational points of `get_lobatto_nodes_1D` (`common/include/ref_quadrature.hpp:55-308`). -/
def lobattoNodesQ : ℕ → List ℚ
  | 1 => [0]
  | 2 => [-1, 1]
  | 3 => [-1, 0, 1]
  | 7 => [-1, -0.830223896278566929872032213967, -0.468848793470714213803771881909, 0,
    0.468848793470714213803771881909, 0.830223896278566929872032213967, 1]
  | 8 => [-1, -0.871740148509606615337445761221, -0.591700181433142302144510731398,
    -0.209299217902478868768657260345, 0.209299217902478868768657260345,
    0.591700181433142302144510731398, 0.871740148509606615337445761221, 1]
  | 9 => [-1, -0.899757995411460157312345244418, -0.677186279510737753445885427091,
    -0.363117463826178158710752068709, 0, 0.363117463826178158710752068709,
    0.677186279510737753445885427091, 0.899757995411460157312345244418, 1]
  | 10 => [-1, -0.919533908166458813828932660822, -0.73877386510550507500310617486,
    -0.477924949810444495661175092731, -0.165278957666387024626219765958,
    0.165278957666387024626219765958, 0.477924949810444495661175092731,
    0.73877386510550507500310617486, 0.919533908166458813828932660822, 1]
  | 11 => [-1, -0.934001430408059134332274136099, -0.784483473663144418622417816108,
    -0.565235326996205006470963969478, -0.295758135586939391431911515559, 0,
    0.295758135586939391431911515559, 0.565235326996205006470963969478,
    0.784483473663144418622417816108, 0.934001430408059134332274136099, 1]
  | 12 => [-1, -0.944899272222882223407580138303, -0.819279321644006678348641581717,
    -0.632876153031869677662404854444, -0.399530940965348932264349791567,
    -0.13655293285492755486406185574, 0.13655293285492755486406185574,
    0.399530940965348932264349791567, 0.632876153031869677662404854444,
    0.819279321644006678348641581717, 0.944899272222882223407580138303, 1]
  | 13 => [-1, -0.953309846642163911896905464755, -0.846347564651872316865925607099,
    -0.686188469081757426072759039566, -0.482909821091336201746937233637,
    -0.249286930106239992568673700374, 0, 0.249286930106239992568673700374,
    0.482909821091336201746937233637, 0.686188469081757426072759039566,
    0.846347564651872316865925607099, 0.953309846642163911896905464755, 1]
  | 14 => [-1, -0.959935045267260901355100162015, -0.867801053830347251000220202908,
    -0.728868599091326140584672400521, -0.550639402928647055316622705859,
    -0.342724013342712845043903403642, -0.116331868883703867658776709736,
    0.116331868883703867658776709736, 0.342724013342712845043903403642,
    0.550639402928647055316622705859, 0.728868599091326140584672400521,
    0.867801053830347251000220202908, 0.959935045267260901355100162015, 1]
  | 15 => [-1, -0.96524592650383857279585139207, -0.885082044222976298825401631482,
    -0.763519689951815200704118475976, -0.606253205469845711123529938637,
    -0.420638054713672480921896938739, -0.215353955363794238225679446273, 0,
    0.215353955363794238225679446273, 0.420638054713672480921896938739,
    0.606253205469845711123529938637, 0.763519689951815200704118475976,
    0.885082044222976298825401631482, 0.96524592650383857279585139207, 1]
  | 16 => [-1, -0.969568046270217932952242738367, -0.89920053309347209299462826152,
    -0.792008291861815063931088270963, -0.652388702882493089467883219641,
    -0.486059421887137611781890785847, -0.299830468900763208098353454722,
    -0.101326273521949447843033005046, 0.101326273521949447843033005046,
    0.299830468900763208098353454722, 0.486059421887137611781890785847,
    0.652388702882493089467883219641, 0.792008291861815063931088270963,
    0.89920053309347209299462826152, 0.969568046270217932952242738367, 1]
  | 17 => [-1, -0.973132176631418314156979501874, -0.910879995915573595623802506398,
    -0.815696251221770307106750553238, -0.691028980627684705394919357372,
    -0.541385399330101539123733407504, -0.372174433565477041907234680735,
    -0.189511973518317388304263014753, 0, 0.189511973518317388304263014753,
    0.372174433565477041907234680735, 0.541385399330101539123733407504,
    0.691028980627684705394919357372, 0.815696251221770307106750553238,
    0.910879995915573595623802506398, 0.973132176631418314156979501874, 1]
  | 18 => [-1, -0.976105557412198542864518924342, -0.920649185347533873837854625431,
    -0.835593535218090213713646362328, -0.723679329283242681306210365302,
    -0.588504834318661761173535893194, -0.434415036912123975342287136741,
    -0.266362652878280984167665332026, -0.897490934846521110226450100886e-1,
    0.897490934846521110226450100886e-1, 0.266362652878280984167665332026,
    0.434415036912123975342287136741, 0.588504834318661761173535893194,
    0.723679329283242681306210365302, 0.835593535218090213713646362328,
    0.920649185347533873837854625431, 0.976105557412198542864518924342, 1]
  | 19 => [-1, -0.97861176622208009515263406311, -0.928901528152586243717940258797,
    -0.852460577796646093085955970041, -0.751494202552613014163637489634,
    -0.628908137265220497766832306229, -0.488229285680713502777909637625,
    -0.333504847824498610298500103845, -0.169186023409281571375154153445, 0,
    0.169186023409281571375154153445, 0.333504847824498610298500103845,
    0.488229285680713502777909637625, 0.628908137265220497766832306229,
    0.751494202552613014163637489634, 0.852460577796646093085955970041,
    0.928901528152586243717940258797, 0.97861176622208009515263406311, 1]
  | 20 => [-1, -0.980743704893914171925446438584, -0.935934498812665435716181584931,
    -0.866877978089950141309847214616, -0.775368260952055870414317527595,
    -0.663776402290311289846403322971, -0.534992864031886261648135961829,
    -0.392353183713909299386474703816, -0.239551705922986495182401356927,
    -0.805459372388218379759445181596e-1, 0.805459372388218379759445181596e-1,
    0.239551705922986495182401356927, 0.392353183713909299386474703816,
    0.534992864031886261648135961829, 0.663776402290311289846403322971,
    0.775368260952055870414317527595, 0.866877978089950141309847214616,
    0.935934498812665435716181584931, 0.980743704893914171925446438584, 1]
  | _ => []

/-- `get_lobatto_nodes_1D` (`common/include/ref_quadrature.hpp:55-308`). -/
noncomputable def lobattoNodes (num : ℕ) : List ℝ :=
  match num with
  | 4 => [-1, -1 / 5 * √(5), 1 / 5 * √(5), 1]
  | 5 => [-1, -1 / 7 * √(21), 0, 1 / 7 * √(21), 1]
  | 6 => [-1,
    -√(1 / 21 * (7 + 2 * √(7))),
    -√(1 / 21 * (7 - 2 * √(7))),
    √(1 / 21 * (7 - 2 * √(7))),
    √(1 / 21 * (7 + 2 * √(7))),
    1]
  | _ => (lobattoNodesQ num).map fun x : ℚ => (x : ℝ)

/-- The rational weights of `get_lobatto_weights_1D` (`common/include/ref_quadrature.hpp:318-572`). -/
def lobattoWeightsQ : ℕ → List ℚ
  | 1 => [2]
  | 2 => [1, 1]
  | 3 => [1 / 3, 4 / 3, 1 / 3]
  | 4 => [1 / 6, 5 / 6, 5 / 6, 1 / 6]
  | 5 => [1 / 10, 49 / 90, 32 / 45, 49 / 90, 1 / 10]
  | 7 => [0.47619047619047619047619047619e-1, 0.27682604736156594801070040629,
    0.431745381209862623417871022281, 0.487619047619047619047619047619,
    0.431745381209862623417871022281, 0.27682604736156594801070040629,
    0.47619047619047619047619047619e-1]
  | 8 => [0.357142857142857142857142857143e-1, 0.210704227143506039382991065776,
    0.341122692483504364764240677108, 0.412458794658703881567052971402,
    0.412458794658703881567052971402, 0.341122692483504364764240677108,
    0.210704227143506039382991065776, 0.357142857142857142857142857143e-1]
  | 9 => [0.277777777777777777777777777778e-1, 0.165495361560805525046339720029,
    0.274538712500161735280705618579, 0.34642851097304634511513153214,
    0.371519274376417233560090702948, 0.34642851097304634511513153214,
    0.274538712500161735280705618579, 0.165495361560805525046339720029,
    0.277777777777777777777777777778e-1]
  | 10 => [0.222222222222222222222222222222e-1, 0.133305990851070111126227170755,
    0.224889342063126452119457821731, 0.292042683679683757875582257374,
    0.327539761183897456656510527917, 0.327539761183897456656510527917,
    0.292042683679683757875582257374, 0.224889342063126452119457821731,
    0.133305990851070111126227170755, 0.222222222222222222222222222222e-1]
  | 11 => [0.181818181818181818181818181818e-1, 0.10961227326699486446140344958,
    0.187169881780305204108141521899, 0.248048104264028314040084866422,
    0.286879124779008088679222403332, 0.30021759545569069378593188117,
    0.286879124779008088679222403332, 0.248048104264028314040084866422,
    0.187169881780305204108141521899, 0.10961227326699486446140344958,
    0.181818181818181818181818181818e-1]
  | 12 => [0.151515151515151515151515151515e-1, 0.916845174131961306683425941341e-1,
    0.1579747055643701151646710627, 0.212508417761021145358302077367, 0.251275603199201280293244412148,
    0.2714052409106961770002883385, 0.2714052409106961770002883385, 0.251275603199201280293244412148,
    0.212508417761021145358302077367, 0.1579747055643701151646710627,
    0.916845174131961306683425941341e-1, 0.151515151515151515151515151515e-1]
  | 13 => [0.128205128205128205128205128205e-1, 0.778016867468189277935889883331e-1,
    0.134981926689608349119914762589, 0.183646865203550092007494258747,
    0.220767793566110086085534008379, 0.24401579030667635645857814836,
    0.251930849333446736044138641541, 0.24401579030667635645857814836,
    0.220767793566110086085534008379, 0.183646865203550092007494258747,
    0.134981926689608349119914762589, 0.778016867468189277935889883331e-1,
    0.128205128205128205128205128205e-1]
  | 14 => [0.10989010989010989010989010989e-1, 0.668372844976812846340706607461e-1,
    0.116586655898711651540996670655, 0.160021851762952142412820997988,
    0.194826149373416118640331778376, 0.219126253009770754871162523954,
    0.231612794468457058889628357293, 0.231612794468457058889628357293,
    0.219126253009770754871162523954, 0.194826149373416118640331778376,
    0.160021851762952142412820997988, 0.116586655898711651540996670655,
    0.668372844976812846340706607461e-1, 0.10989010989010989010989010989e-1]
  | 15 => [0.952380952380952380952380952381e-2, 0.580298930286012490968805840253e-1,
    0.101660070325718067603666170789, 0.140511699802428109460446805644,
    0.172789647253600949052077099408, 0.196987235964613356092500346507,
    0.211973585926820920127430076977, 0.217048116348815649514950214251,
    0.211973585926820920127430076977, 0.196987235964613356092500346507,
    0.172789647253600949052077099408, 0.140511699802428109460446805644,
    0.101660070325718067603666170789, 0.580298930286012490968805840253e-1,
    0.952380952380952380952380952381e-2]
  | 16 => [0.833333333333333333333333333333e-2, 0.508503610059199054032449195655e-1,
    0.893936973259308009910520801661e-1, 0.124255382132514098349536332657,
    0.154026980807164280815644940485, 0.177491913391704125301075669528,
    0.193690023825203584316913598854, 0.201958308178229871489199125411,
    0.201958308178229871489199125411, 0.193690023825203584316913598854,
    0.177491913391704125301075669528, 0.154026980807164280815644940485,
    0.124255382132514098349536332657, 0.893936973259308009910520801661e-1,
    0.508503610059199054032449195655e-1, 0.833333333333333333333333333333e-2]
  | 17 => [0.735294117647058823529411764706e-2, 0.449219405432542096474009546232e-1,
    0.791982705036871191902644299528e-1, 0.11059290900702816137577270522,
    0.137987746201926559056201574954, 0.160394661997621539516328365865,
    0.177004253515657870436945745363, 0.187216339677619235892088482861,
    0.190661874753469433299407247028, 0.187216339677619235892088482861,
    0.177004253515657870436945745363, 0.160394661997621539516328365865,
    0.137987746201926559056201574954, 0.11059290900702816137577270522,
    0.791982705036871191902644299528e-1, 0.449219405432542096474009546232e-1,
    0.735294117647058823529411764706e-2]
  | 18 => [0.653594771241830065359477124183e-2, 0.399706288109140661375991764101e-1,
    0.706371668856336649992229601678e-1, 0.990162717175028023944236053187e-1,
    0.124210533132967100263396358897, 0.145411961573802267983003210494, 0.1619395172376024892643267067,
    0.173262109489456226010614403827, 0.179015863439703082293818806944,
    0.179015863439703082293818806944, 0.173262109489456226010614403827, 0.1619395172376024892643267067,
    0.145411961573802267983003210494, 0.124210533132967100263396358897,
    0.990162717175028023944236053187e-1, 0.706371668856336649992229601678e-1,
    0.399706288109140661375991764101e-1, 0.653594771241830065359477124183e-2]
  | 19 => [0.584795321637426900584795321637e-2, 0.357933651861764771154255690351e-1,
    0.633818917626297368516956904183e-1, 0.891317570992070844480087905562e-1,
    0.112315341477305044070910015464, 0.13226728044875077692604673391,
    0.148413942595938885009680643668, 0.160290924044061241979910968184,
    0.16755658452714286727013727774, 0.170001919284827234644672715617, 0.16755658452714286727013727774,
    0.160290924044061241979910968184, 0.148413942595938885009680643668,
    0.13226728044875077692604673391, 0.112315341477305044070910015464,
    0.891317570992070844480087905562e-1, 0.633818917626297368516956904183e-1,
    0.357933651861764771154255690351e-1, 0.584795321637426900584795321637e-2]
  | 20 => [0.526315789473684210526315789474e-2, 0.322371231884889414916050281173e-1,
    0.571818021275668260047536271732e-1, 0.806317639961196031447768461137e-1,
    0.101991499699450815683781205733, 0.120709227628674725099429705002,
    0.136300482358724184489780792989, 0.148361554070916825814713013734,
    0.156580102647475487158169896794, 0.160743286387845749007726726449,
    0.160743286387845749007726726449, 0.156580102647475487158169896794,
    0.148361554070916825814713013734, 0.136300482358724184489780792989,
    0.120709227628674725099429705002, 0.101991499699450815683781205733,
    0.806317639961196031447768461137e-1, 0.571818021275668260047536271732e-1,
    0.322371231884889414916050281173e-1, 0.526315789473684210526315789474e-2]
  | _ => []

/-- `get_lobatto_weights_1D` (`common/include/ref_quadrature.hpp:318-572`). -/
noncomputable def lobattoWeights (num : ℕ) : List ℝ :=
  match num with
  | 6 => [1 / 15,
    1 / 30 * (14 - √(7)),
    1 / 30 * (14 + √(7)),
    1 / 30 * (14 + √(7)),
    1 / 30 * (14 - √(7)),
    1 / 15]
  | _ => (lobattoWeightsQ num).map fun x : ℚ => (x : ℝ)

/-- `get_legendre_nodes_1D` (`common/include/ref_quadrature.hpp:591-823`). -/
def legendreNodesQ : ℕ → List ℚ
  | 1 => [0]
  | 2 => [-0.577350269189625764509148780501, 0.577350269189625764509148780501]
  | 3 => [-0.774596669241483377035853079956, 0, 0.774596669241483377035853079956]
  | 4 => [-0.861136311594052575223946488892, -0.339981043584856264802665759103,
    0.339981043584856264802665759103, 0.861136311594052575223946488892]
  | 5 => [-0.906179845938663992797626878299, -0.5384693101056830910363144207, 0,
    0.5384693101056830910363144207, 0.906179845938663992797626878299]
  | 6 => [-0.932469514203152027812301554493, -0.661209386466264513661399595019,
    -0.23861918608319690863050172168, 0.23861918608319690863050172168,
    0.661209386466264513661399595019, 0.932469514203152027812301554493]
  | 7 => [-0.949107912342758524526189684047, -0.74153118559939443986386477328,
    -0.405845151377397166906606412076, 0, 0.405845151377397166906606412076,
    0.74153118559939443986386477328, 0.949107912342758524526189684047]
  | 8 => [-0.960289856497536231683560868569, -0.796666477413626739591553936475,
    -0.525532409916328985817739049189, -0.18343464249564980493947614236,
    0.18343464249564980493947614236, 0.525532409916328985817739049189,
    0.796666477413626739591553936475, 0.960289856497536231683560868569]
  | 9 => [-0.968160239507626089835576202903, -0.836031107326635794299429788069,
    -0.613371432700590397308702039341, -0.324253423403808929038538014643, 0,
    0.324253423403808929038538014643, 0.613371432700590397308702039341,
    0.836031107326635794299429788069, 0.968160239507626089835576202903]
  | 10 => [-0.9739065285171717200779640120844, -0.8650633666889845107320966884234,
    -0.6794095682990244062343273651148, -0.4333953941292471907992659431657,
    -0.1488743389816312108848260011297, 0.1488743389816312108848260011297,
    0.4333953941292471907992659431657, 0.6794095682990244062343273651148,
    0.8650633666889845107320966884234, 0.9739065285171717200779640120844]
  | 11 => [-0.9782286581460569928039380011228, -0.8870625997680952990751577693039,
    -0.7301520055740493240934162520311, -0.5190961292068118159257256694586,
    -0.2695431559523449723315319854008, 0, 0.2695431559523449723315319854008,
    0.5190961292068118159257256694586, 0.7301520055740493240934162520311,
    0.8870625997680952990751577693039, 0.9782286581460569928039380011228]
  | 12 => [-0.9815606342467192506905490901492, -0.904117256370474856678465866119,
    -0.7699026741943046870368938332128, -0.5873179542866174472967024189405,
    -0.3678314989981801937526915366437, -0.1252334085114689154724413694638,
    0.1252334085114689154724413694638, 0.3678314989981801937526915366437,
    0.5873179542866174472967024189405, 0.7699026741943046870368938332128,
    0.904117256370474856678465866119, 0.9815606342467192506905490901492]
  | 13 => [-0.9841830547185881494728294488071, -0.91759839922297796520654783650071,
    -0.80157809073330991279420648958285, -0.64234933944034022064398460699551,
    -0.44849275103644685287791285212763, -0.23045831595513479406552812109798, 0,
    0.23045831595513479406552812109798, 0.44849275103644685287791285212763,
    0.64234933944034022064398460699551, 0.80157809073330991279420648958285,
    0.91759839922297796520654783650071, 0.9841830547185881494728294488071]
  | 14 => [-0.986283808696812338841597266704052, -0.928434883663573517336391139377874,
    -0.827201315069764993189794742650394, -0.687292904811685470148019803019334,
    -0.515248636358154091965290718551188, -0.319112368927889760435671824168475,
    -0.108054948707343662066244650219834, 0.108054948707343662066244650219834,
    0.319112368927889760435671824168475, 0.515248636358154091965290718551188,
    0.687292904811685470148019803019334, 0.827201315069764993189794742650394,
    0.928434883663573517336391139377874, 0.986283808696812338841597266704052]
  | 15 => [-0.987992518020485428489565718586612, -0.937273392400705904307758947710209,
    -0.848206583410427216200648320774216, -0.724417731360170047416186054613938,
    -0.57097217260853884753722673725391, -0.394151347077563369897207370981045,
    -0.201194093997434522300628303394596, 0, 0.201194093997434522300628303394596,
    0.394151347077563369897207370981045, 0.57097217260853884753722673725391,
    0.724417731360170047416186054613938, 0.848206583410427216200648320774216,
    0.937273392400705904307758947710209, 0.987992518020485428489565718586612]
  | 16 => [-0.989400934991649932596154173450332, -0.944575023073232576077988415534608,
    -0.865631202387831743880467897712393, -0.755404408355003033895101194847442,
    -0.617876244402643748446671764048791, -0.458016777657227386342419442983577,
    -0.281603550779258913230460501460496, -0.095012509837637440185319335424958,
    0.095012509837637440185319335424958, 0.281603550779258913230460501460496,
    0.458016777657227386342419442983577, 0.617876244402643748446671764048791,
    0.755404408355003033895101194847442, 0.865631202387831743880467897712393,
    0.944575023073232576077988415534608, 0.989400934991649932596154173450332]
  | 17 => [-0.990575475314417335675434019940665, -0.950675521768767761222716957895803,
    -0.880239153726985902122955694488155, -0.781514003896801406925230055520476,
    -0.657671159216690765850302216643002, -0.512690537086476967886246568629551,
    -0.351231763453876315297185517095346, -0.178484181495847855850677493654065, 0,
    0.178484181495847855850677493654065, 0.351231763453876315297185517095346,
    0.512690537086476967886246568629551, 0.657671159216690765850302216643002,
    0.781514003896801406925230055520476, 0.880239153726985902122955694488155,
    0.950675521768767761222716957895803, 0.990575475314417335675434019940665]
  | 18 => [-0.99156516842093094673001600470615, -0.955823949571397755181195892929776,
    -0.892602466497555739206060591127145, -0.80370495897252311568241745501459,
    -0.691687043060353207874891081288848, -0.559770831073947534607871548525329,
    -0.411751161462842646035931793833051, -0.251886225691505509588972854877911,
    -0.084775013041735301242261852935783, 0.084775013041735301242261852935783,
    0.251886225691505509588972854877911, 0.411751161462842646035931793833051,
    0.559770831073947534607871548525329, 0.691687043060353207874891081288848,
    0.80370495897252311568241745501459, 0.892602466497555739206060591127145,
    0.955823949571397755181195892929776, 0.99156516842093094673001600470615]
  | 19 => [-0.99240684384358440318901767025326, -0.960208152134830030852778840687651,
    -0.903155903614817901642660928532312, -0.822714656537142824978922486712713,
    -0.720966177335229378617095860823781, -0.600545304661681023469638164946239,
    -0.464570741375960945717267148104102, -0.316564099963629831990117328849844,
    -0.160358645640225375868096115740743, 0, 0.160358645640225375868096115740743,
    0.316564099963629831990117328849844, 0.464570741375960945717267148104102,
    0.600545304661681023469638164946239, 0.720966177335229378617095860823781,
    0.822714656537142824978922486712713, 0.903155903614817901642660928532312,
    0.960208152134830030852778840687651, 0.99240684384358440318901767025326]
  | _ => []

/-- `get_legendre_weights_1D` (`common/include/ref_quadrature.hpp:842-1074`). -/
def legendreWeightsQ : ℕ → List ℚ
  | 1 => [2]
  | 2 => [1, 1]
  | 3 => [0.555555555555555555555555555555555, 0.888888888888888888888888888888888,
    0.555555555555555555555555555555555]
  | 4 => [0.347854845137453857373063949221999, 0.652145154862546142626936050778,
    0.652145154862546142626936050778, 0.347854845137453857373063949221999]
  | 5 => [0.236926885056189087514264040719917, 0.478628670499366468041291514835638,
    0.568888888888888888888888888888888, 0.478628670499366468041291514835638,
    0.236926885056189087514264040719917]
  | 6 => [0.171324492379170345040296142172732, 0.360761573048138607569833513837716,
    0.46791393457269104738987034398955, 0.46791393457269104738987034398955,
    0.360761573048138607569833513837716, 0.171324492379170345040296142172732]
  | 7 => [0.129484966168869693270611432679082, 0.279705391489276667901467771423779,
    0.381830050505118944950369775488975, 0.417959183673469387755102040816326,
    0.381830050505118944950369775488975, 0.279705391489276667901467771423779,
    0.129484966168869693270611432679082]
  | 8 => [0.101228536290376259152531354309962, 0.22238103445337447054435599442624,
    0.313706645877887287337962201986601, 0.362683783378361982965150449277195,
    0.362683783378361982965150449277195, 0.313706645877887287337962201986601,
    0.22238103445337447054435599442624, 0.101228536290376259152531354309962]
  | 9 => [0.081274388361574411971892158110523, 0.180648160694857404058472031242912,
    0.260610696402935462318742869418632, 0.312347077040002840068630406584443,
    0.330239355001259763164525069286974, 0.312347077040002840068630406584443,
    0.260610696402935462318742869418632, 0.180648160694857404058472031242912,
    0.081274388361574411971892158110523]
  | 10 => [0.066671344308688137593568809893331, 0.149451349150580593145776339657697,
    0.219086362515982043995534934228163, 0.269266719309996355091226921569469,
    0.295524224714752870173892994651338, 0.295524224714752870173892994651338,
    0.269266719309996355091226921569469, 0.219086362515982043995534934228163,
    0.149451349150580593145776339657697, 0.066671344308688137593568809893331]
  | 11 => [0.055668567116173666482753720442548, 0.12558036946490462463469429922394,
    0.186290210927734251426097641431655, 0.233193764591990479918523704843175,
    0.262804544510246662180688869890509, 0.272925086777900630714483528336342,
    0.262804544510246662180688869890509, 0.233193764591990479918523704843175,
    0.186290210927734251426097641431655, 0.12558036946490462463469429922394,
    0.055668567116173666482753720442548]
  | 12 => [0.04717533638651182719461596148501, 0.10693932599531843096025471819399,
    0.16007832854334622633465252954335, 0.20316742672306592174906445580979,
    0.23349253653835480876084989892487, 0.24914704581340278500056243604295,
    0.24914704581340278500056243604295, 0.23349253653835480876084989892487,
    0.20316742672306592174906445580979, 0.16007832854334622633465252954335,
    0.10693932599531843096025471819399, 0.04717533638651182719461596148501]
  | 13 => [0.04048400476531587952002159220098, 0.09212149983772844791442177595379,
    0.13887351021978723846360177686887, 0.17814598076194573828004669199609,
    0.20781604753688850231252321930605, 0.22628318026289723841209018603977,
    0.23255155323087391019458951526883, 0.22628318026289723841209018603977,
    0.20781604753688850231252321930605, 0.17814598076194573828004669199609,
    0.13887351021978723846360177686887, 0.09212149983772844791442177595379,
    0.04048400476531587952002159220098]
  | 14 => [0.03511946033175186303183287613819, 0.08015808715976020980563327706285,
    0.12151857068790318468941480907247, 0.15720316715819353456960193862384,
    0.18553839747793781374171659012515, 0.20519846372129560396592406566121,
    0.21526385346315779019587644331626, 0.21526385346315779019587644331626,
    0.20519846372129560396592406566121, 0.18553839747793781374171659012515,
    0.15720316715819353456960193862384, 0.12151857068790318468941480907247,
    0.08015808715976020980563327706285, 0.03511946033175186303183287613819]
  | 15 => [0.0307532419961172683546283935772, 0.07036604748810812470926741645066,
    0.10715922046717193501186954668586, 0.13957067792615431444780479451102,
    0.1662692058169939335532008604812, 0.18616100001556221102680056186642,
    0.19843148532711157645611832644383, 0.20257824192556127288062019996751,
    0.19843148532711157645611832644383, 0.18616100001556221102680056186642,
    0.1662692058169939335532008604812, 0.13957067792615431444780479451102,
    0.10715922046717193501186954668586, 0.07036604748810812470926741645066,
    0.0307532419961172683546283935772]
  | 16 => [0.02715245941175409485178057245601, 0.06225352393864789286284383699437,
    0.09515851168249278480992510760224, 0.12462897125553387205247628219201,
    0.14959598881657673208150173054747, 0.16915651939500253818931207903035,
    0.18260341504492358886676366796921, 0.18945061045506849628539672320828,
    0.18945061045506849628539672320828, 0.18260341504492358886676366796921,
    0.16915651939500253818931207903035, 0.14959598881657673208150173054747,
    0.12462897125553387205247628219201, 0.09515851168249278480992510760224,
    0.06225352393864789286284383699437, 0.02715245941175409485178057245601]
  | 17 => [0.02414830286854793196011002628756, 0.05545952937398720112944016535824,
    0.08503614831717918088353537019106, 0.11188384719340397109478838562635,
    0.13513636846852547328631998170235, 0.15404576107681028808143159480195,
    0.16800410215645004450997066378832, 0.17656270536699264632527099011319,
    0.17944647035620652545826564426188, 0.17656270536699264632527099011319,
    0.16800410215645004450997066378832, 0.15404576107681028808143159480195,
    0.13513636846852547328631998170235, 0.11188384719340397109478838562635,
    0.08503614831717918088353537019106, 0.05545952937398720112944016535824,
    0.02414830286854793196011002628756]
  | 18 => [0.02161601352648331031334271026645, 0.04971454889496979645333494620263,
    0.07642573025488905652912967761663, 0.10094204410628716556281398492483,
    0.1225552067114784601845191268002, 0.14064291467065065120473130375194,
    0.15468467512626524492541800383637, 0.16427648374583272298605377646592,
    0.16914238296314359184065647013498, 0.16914238296314359184065647013498,
    0.16427648374583272298605377646592, 0.15468467512626524492541800383637,
    0.14064291467065065120473130375194, 0.1225552067114784601845191268002,
    0.10094204410628716556281398492483, 0.07642573025488905652912967761663,
    0.04971454889496979645333494620263, 0.02161601352648331031334271026645]
  | 19 => [0.01946178822972647703631204146443, 0.04481422676569960033283815740199,
    0.06904454273764122658070825800601, 0.09149002162244999946446209412383,
    0.11156664554733399471602390168176, 0.12875396253933622767551578485687,
    0.1426067021736066117757461094419, 0.15276604206585966677885540089766,
    0.15896884339395434764995643946504, 0.16105444984878369597916362532091,
    0.15896884339395434764995643946504, 0.15276604206585966677885540089766,
    0.1426067021736066117757461094419, 0.12875396253933622767551578485687,
    0.11156664554733399471602390168176, 0.09149002162244999946446209412383,
    0.06904454273764122658070825800601, 0.04481422676569960033283815740199,
    0.01946178822972647703631204146443]
  | _ => []

end Fierro.RefQuad
